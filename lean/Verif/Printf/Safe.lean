import Verif.Printf.Lemmas
import Verif.Fmt.Safe

/-! # C91 No format string crashes `fmt::sprintf` -/

namespace Blackhole.Printf

open Fmt (Err Spec Next peek isDigit parseNonneg charValue Defined Within)
open FmtArgs (Val)

/-- An argument as a caller can pass it. -/
def Valid : Val → Prop
  | .arg a => a.Valid
  | .ptr n => n < 2 ^ 64
  | _ => True

/-! ## Helpers -/

theorem writeInt_defined (bits : Nat) (hb : bits = 32 ∨ bits = 64) (spec : Spec) (z : Int)
    (h1 : -2 ^ bits < z) (h2 : z < 2 ^ bits) : Defined (writeInt bits spec z) := by
  rw [writeInt_eq bits hb spec z h1 h2]
  split
  · exact Fmt.defined_ok _
  · exact Fmt.defined_format _

theorem char_toNat_lt (c : Char) : c.toNat < 2 ^ 31 := by
  have := c.valid
  simp only [UInt32.isValidChar, Nat.isValidChar] at this
  show c.val.toNat < _
  omega

theorem charValue_range (c : Char) : -2 ^ 31 ≤ charValue c ∧ charValue c < 2 ^ 31 := by
  have := char_toNat_lt c
  unfold charValue
  split <;> omega

theorem anyInt_range {v : Val} (hv : Valid v) {bits : Nat} {z : Int} (h : anyInt v = some (bits, z)) :
    (bits = 32 ∨ bits = 64) ∧ -2 ^ bits < z ∧ z < 2 ^ bits := by
  unfold anyInt at h
  split at h
  all_goals first
    | (simp only [Option.some.injEq, Prod.mk.injEq] at h; obtain ⟨rfl, rfl⟩ := h)
    | (cases h)
  · simp only [Valid, Fmt.Arg.Valid] at hv; exact ⟨.inl rfl, by omega, by omega⟩
  · simp only [Valid, Fmt.Arg.Valid] at hv; exact ⟨.inl rfl, by omega, by omega⟩
  · simp only [Valid, Fmt.Arg.Valid] at hv; exact ⟨.inr rfl, by omega, by omega⟩
  · simp only [Valid, Fmt.Arg.Valid] at hv; exact ⟨.inr rfl, by omega, by omega⟩
  · refine ⟨.inl rfl, ?_, ?_⟩ <;> split <;> decide
  · rename_i c
    have := charValue_range c
    exact ⟨.inl rfl, by omega, by omega⟩
  · rename_i c
    have := char_toNat_lt c
    exact ⟨.inl rfl, by omega, by omega⟩

theorem writeChar_defined (spec : Spec) (z : Int) (c : Char) (h1 : -2 ^ 32 < z) (h2 : z < 2 ^ 32) :
    Defined (writeChar spec z c) := by
  have hw := writeInt_defined 32 (.inl rfl) spec z h1 h2
  have key : ∀ (r : Except Err Str) (f : Str → Str), Defined r → Defined (r >>= fun x => .ok (f x)) := by
    intro r f hr
    cases r with
    | error e => intro u hu; exact hr u (by simpa [bind, Except.bind] using hu)
    | ok x => exact Fmt.defined_ok _
  unfold writeChar
  by_cases ht : spec.type ≠ none ∧ spec.type ≠ some 'c'
  · rw [if_pos ht]; exact key _ _ hw
  · rw [if_neg ht]; exact key _ _ (Fmt.defined_ok _)

theorem writeVal_defined (fd : Spec → Nat → Except Err Str) (hfd : ∀ spec bits, Defined (fd spec bits)) (spec : Spec)
    (v : Val) (hv : Valid v) : Defined (writeVal fd spec v) := by
  unfold writeVal
  split
  · simp only [Valid, Fmt.Arg.Valid] at hv; exact writeInt_defined _ (.inl rfl) _ _ (by omega) (by omega)
  · simp only [Valid, Fmt.Arg.Valid] at hv; exact writeInt_defined _ (.inl rfl) _ _ (by omega) (by omega)
  · simp only [Valid, Fmt.Arg.Valid] at hv; exact writeInt_defined _ (.inr rfl) _ _ (by omega) (by omega)
  · simp only [Valid, Fmt.Arg.Valid] at hv; exact writeInt_defined _ (.inr rfl) _ _ (by omega) (by omega)
  · refine writeInt_defined _ (.inl rfl) _ _ ?_ ?_ <;> split <;> decide
  · rename_i c
    have := charValue_range c
    exact writeChar_defined _ _ _ (by omega) (by omega)
  · rename_i c
    have := char_toNat_lt c
    exact writeChar_defined _ _ _ (by omega) (by omega)
  · exact hfd _ _
  · refine Fmt.writeStr_defined _ _ ?_
    intro s behind e
    cases e
    exact .inr (by simp)
  · refine Fmt.writeStr_defined _ _ ?_
    intro s behind e
    cases e
    exact hv
  · refine Fmt.writeStr_defined _ _ ?_
    intro s behind e
    cases e
  · split
    · split
      · rename_i c _ _
        intro u hu
        unfold Fmt.unknownType at hu
        split at hu <;> cases hu
      · exact writeInt_defined 64 (.inr rfl) _ _ (by omega) (by simp only [Valid] at hv; omega)
    · exact writeInt_defined 64 (.inr rfl) _ _ (by omega) (by simp only [Valid] at hv; omega)
  · exact Fmt.defined_ok _

theorem convert_valid (bits : Nat) (type : Char) (v : Val) (hv : Valid v) :
    Valid (convert bits type v) := by
  unfold convert
  cases h : anyInt v with
  | none => exact hv
  | some x =>
    obtain ⟨ubits, z⟩ := x
    obtain ⟨hu, _, _⟩ := anyInt_range hv h
    simp only
    split
    · rename_i h32
      have hp : 2 ^ bits ≤ 2 ^ 32 := Nat.pow_le_pow_right (by decide) h32
      split
      · have h1 := Int.le_bmod (x := z) (m := 2 ^ bits) (Nat.two_pow_pos _)
        have h2 := Int.bmod_lt (x := z) (m := 2 ^ bits) (Nat.two_pow_pos _)
        simp only [Valid, Fmt.Arg.Valid]
        generalize 2 ^ bits = m at *
        omega
      · simp only [Valid, Fmt.Arg.Valid]
        have h1 : (0 : Int) < 2 ^ bits := Int.pow_pos (by decide)
        have h2 := Int.emod_lt_of_pos z h1
        have h3 := Int.emod_nonneg z (show (2 : Int) ^ bits ≠ 0 by omega)
        have h4 : (2 : Int) ^ bits = ((2 ^ bits : Nat) : Int) := by simp
        rw [h4] at h2 h3 ⊢
        generalize 2 ^ bits = m at *
        omega
    · split
      · have h1 := Int.le_bmod (x := z % 2 ^ ubits) (m := 2 ^ 64) (Nat.two_pow_pos _)
        have h2 := Int.bmod_lt (x := z % 2 ^ ubits) (m := 2 ^ 64) (Nat.two_pow_pos _)
        simp only [Valid, Fmt.Arg.Valid]
        omega
      · simp only [Valid, Fmt.Arg.Valid]
        rcases hu with rfl | rfl <;> omega

theorem toChar_valid (v : Val) (hv : Valid v) : Valid (toChar v) := by
  unfold toChar
  split
  · exact hv
  · trivial

theorem parseLength_valid (v : Val) (hv : Valid v) (s : Str) :
    Valid (parseLength v s).1 ∧ (parseLength v s).2.length ≤ s.length := by
  unfold parseLength
  split <;> first
    | exact ⟨convert_valid _ _ _ hv, by simp; try omega⟩
    | exact ⟨hv, by simp⟩

theorem writeTyped_defined (fd : Spec → Nat → Except Err Str) (hfd : ∀ spec bits, Defined (fd spec bits)) (spec : Spec)
    (v : Val) (hv : Valid v) (c : Char) : Defined (writeTyped fd spec v c) := by
  unfold writeTyped
  split
  · split
    · exact writeVal_defined fd hfd _ _ hv
    · split
      · exact writeVal_defined fd hfd _ _ (toChar_valid _ hv)
      · exact writeVal_defined fd hfd _ _ hv
  · exact writeVal_defined fd hfd _ _ hv

theorem parseFlags_length (s : Str) : ∀ spec, (parseFlags spec s).2.length ≤ s.length := by
  induction s with
  | nil => intro spec; simp [parseFlags]
  | cons c s ih =>
    intro spec
    unfold parseFlags
    split
    all_goals first
      | (rename_i heq; cases heq; simp only [List.length_cons]; exact Nat.le_succ_of_le (ih _))
      | exact Nat.le_refl _

theorem getArg_spec (args : List Val) (next : Next) (s : Str) (index : Option Nat) :
    Defined (getArg args next s index) ∧ ∀ v next', getArg args next s index = .ok (v, next') → v ∈ args := by
  unfold getArg
  simp only
  split
  · split
    · split
      · rename_i h
        exact ⟨Fmt.defined_ok _, by intro v n e; cases e; exact List.mem_of_getElem? h⟩
      · exact ⟨Fmt.defined_format _, by intro v n e; cases e⟩
    · exact ⟨Fmt.defined_format _, by intro v n e; cases e⟩
  · split
    · exact ⟨Fmt.defined_format _, by intro v n e; cases e⟩
    · split
      · rename_i h
        refine ⟨Fmt.defined_ok _, ?_⟩
        intro v n e
        cases e
        split at h
        · cases h
        · exact List.mem_of_getElem? h
      · exact ⟨Fmt.defined_format _, by intro v n e; cases e⟩

theorem widthOf_defined (spec : Spec) (v : Val) : Defined (widthOf spec v) := by
  unfold widthOf
  split
  · exact Fmt.defined_format _
  · rename_i bits z _
    simp only
    generalize (if z < 0 then (-z % 2 ^ bits).toNat else z.toNat) = n
    split
    · exact Fmt.defined_format _
    · exact Fmt.defined_ok _

theorem precisionOf_defined (v : Val) : Defined (precisionOf v) := by
  unfold precisionOf
  split
  · exact Fmt.defined_format _
  · split
    · exact Fmt.defined_format _
    · exact Fmt.defined_ok _

theorem within_star {α β : Type} (k : Nat) (rb : β → Str) (r : Except Err α) (f : α → Except Err β) (hr : Defined r)
    (hf : ∀ x, Within k rb (f x)) : Within k rb (r >>= f) := by
  cases r with
  | error e =>
    refine ⟨?_, by intro y hy; cases hy⟩
    intro u hu
    exact hr u (by simpa [bind, Except.bind] using hu)
  | ok x => exact hf x

theorem parseRest_within (args : List Val) (next : Next) (spec : Spec) (s : Str) :
    Within s.length (fun x => x.2.2) (parseRest args next spec s) := by
  have hfl := parseFlags_length s spec
  unfold parseRest
  generalize parseFlags spec s = r at *
  obtain ⟨spec1, t⟩ := r
  simp only at hfl ⊢
  split
  · refine Fmt.within_map t.length _ _ _ _ _ (Fmt.parseNonneg_within t) ?_
    intro x hx; simp only; omega
  · split
    · rename_i s2 _
      simp only [List.length_cons] at hfl
      refine within_star _ _ _ _ (getArg_spec args next s2 none).1 ?_
      rintro ⟨v, n⟩
      refine within_star _ _ _ _ (widthOf_defined spec1 v) ?_
      intro spec2
      exact Fmt.within_ok _ _ _ (by simp only; omega)
    · exact Fmt.within_ok _ _ _ (by simp only; omega)

theorem parseHeader_within (args : List Val) (next : Next) (spec : Spec) (s : Str) :
    Within s.length (fun x => x.2.2.2) (parseHeader args next spec s) := by
  unfold parseHeader
  simp only
  split
  · refine Fmt.within_bind s.length _ (fun x => x.2) _ _ _ (Fmt.parseNonneg_within s) ?_
    rintro ⟨value, t⟩ ht
    simp only at ht ⊢
    split
    · refine Fmt.within_map t.tail.length _ _ _ _ _ (parseRest_within args next _ t.tail) ?_
      intro x hx
      simp only [List.length_tail] at hx ⊢
      omega
    · split
      · exact Fmt.within_ok _ _ _ ht
      · refine Fmt.within_map t.length _ _ _ _ _ (parseRest_within args next _ t) ?_
        intro x hx
        simp only
        omega
  · refine Fmt.within_map s.length _ _ _ _ _ (parseRest_within args next _ s) ?_
    intro x hx
    exact hx

theorem parsePrecision_within (args : List Val) (next : Next) (spec : Spec) (s : Str) :
    Within s.length (fun x => x.2.2) (parsePrecision args next spec s) := by
  unfold parsePrecision
  split
  · rename_i t
    split
    · refine Fmt.within_map t.length _ _ _ _ _ (Fmt.parseNonneg_within t) ?_
      intro x hx
      simp only [List.length_cons]
      omega
    · split
      · rename_i t2 _
        refine within_star _ _ _ _ (getArg_spec args next t2 none).1 ?_
        rintro ⟨v, n⟩
        refine within_star _ _ _ _ (precisionOf_defined v) ?_
        intro p
        exact Fmt.within_ok _ _ _ (by simp only [List.length_cons]; omega)
      · exact Fmt.within_ok _ _ _ (by simp only [List.length_cons]; omega)
  · exact Fmt.within_ok _ _ _ (Nat.le_refl _)

theorem directive_within (fd : Spec → Nat → Except Err Str) (hfd : ∀ spec bits, Defined (fd spec bits))
    (args : List Val) (ha : ∀ a ∈ args, Valid a) (next : Next) (s : Str) :
    Within s.length (fun x => x.2.2) (directive fd args next s) := by
  unfold directive
  refine Fmt.within_bind s.length _ (fun x => x.2.2.2) _ _ _ (parseHeader_within args next _ s) ?_
  rintro ⟨index, spec, next1, t⟩ ht
  simp only at ht ⊢
  refine Fmt.within_bind t.length _ (fun x => x.2.2) _ _ _ (parsePrecision_within args next1 spec t) ?_
  rintro ⟨spec2, next2, t2⟩ ht2
  simp only at ht2 ⊢
  have hg := getArg_spec args next2 t2 index
  cases h : getArg args next2 t2 index with
  | error e =>
    refine ⟨?_, by intro y hy; cases hy⟩
    intro u hu
    exact hg.1 u (by simpa [h, bind, Except.bind] using hu)
  | ok x =>
    obtain ⟨v, next3⟩ := x
    have hv := ha v (hg.2 v next3 h)
    have hl := parseLength_valid v hv t2
    simp only [bind, Except.bind]
    generalize parseLength v t2 = r at *
    obtain ⟨v2, t3⟩ := r
    simp only at hl ⊢
    cases t3 with
    | nil => exact Fmt.within_format _ _ _
    | cons c t4 =>
      simp only [List.length_cons] at hl ⊢
      have hw := writeTyped_defined fd hfd (adjust spec2 v) v2 hl.1 c
      cases hwr : writeTyped fd (adjust spec2 v) v2 c with
      | error e =>
        refine ⟨?_, by intro y hy; cases hy⟩
        intro u hu
        exact hw u (by simpa [hwr] using hu)
      | ok out => exact Fmt.within_ok _ _ _ (by simp only; omega)

theorem formatLoop_defined (fd : Spec → Nat → Except Err Str) (hfd : ∀ spec bits, Defined (fd spec bits))
    (args : List Val) (ha : ∀ a ∈ args, Valid a) (fuel : Nat) :
    ∀ (next : Next) (s : Str), s.length ≤ fuel → Defined (formatLoop fd args fuel next s) := by
  have hmap : ∀ (r : Except Err Str) (f : Str → Str), Defined r → Defined (r.map f) := by
    intro r f h
    cases r with
    | error e => intro u hu; exact h u (by simpa [Except.map] using hu)
    | ok x => exact Fmt.defined_ok _
  induction fuel with
  | zero =>
    intro next s hs
    cases s with
    | nil => exact Fmt.defined_ok _
    | cons c s => simp at hs
  | succ fuel ih =>
    intro next s hs
    cases s with
    | nil => exact Fmt.defined_ok _
    | cons c s =>
      simp only [List.length_cons] at hs
      unfold formatLoop
      split
      · exact hmap _ _ (ih _ _ (by omega))
      · split
        · exact hmap _ _ (ih _ _ (by simp; omega))
        · have hf := directive_within fd hfd args ha next s
          cases h : directive fd args next s with
          | error e =>
            intro u hu
            exact hf.1 u (by simpa [h] using hu)
          | ok x =>
            obtain ⟨out, next1, t⟩ := x
            have ht : t.length ≤ s.length := hf.2 _ h
            exact hmap _ _ (ih _ _ (by omega))

/-! ## The property -/

/-- Whatever the format string and the arguments are, whether or not they match it, `fmt::sprintf` returns a text or
throws a format error: it reads and writes only what it may, and it ends. C's `sprintf` is undefined if they do not
match. -/
theorem C91_any_format_string (fd : Spec → Nat → Except Err Str) (hfd : ∀ spec bits u, fd spec bits ≠ .error (.ub u))
    (format : Str) (args : List Val) (ha : ∀ a ∈ args, Valid a) :
    (∃ text, sprintf fd format args = .ok text) ∨ ∃ msg, sprintf fd format args = .error (.format msg) := by
  have := formatLoop_defined fd hfd args ha (Config.cstr format).length (some 0) (Config.cstr format) (Nat.le_refl _)
  unfold sprintf
  simp only
  cases h : formatLoop fd args (Config.cstr format).length (some 0) (Config.cstr format) with
  | ok text => exact .inl ⟨text, rfl⟩
  | error e =>
    cases e with
    | format m => exact .inr ⟨m, rfl⟩
    | ub u => exact absurd h (this u)

private def someVals : List Val :=
  [.arg (.int (-2147483648)), .arg (.ulong 7), .uchar 'c', .arg (.cstr []), .ptr 255, .custom ['x'], .arg (.bool true)]

example : (∀ a ∈ someVals, Valid a)
    ∧ (∃ m, sprintf (fun _ _ => .ok []) (ch! "%d%s") someVals = .error (.format m))
    ∧ (∃ m, sprintf (fun _ _ => .ok []) (ch! "%0$*.*hh") someVals = .error (.format m))
    ∧ (∃ m, sprintf (fun _ _ => .ok []) (ch! "%*d") someVals = .error (.format m))
    ∧ sprintf (fun _ _ => .ok []) (ch! "%x %X %5c|%s|%6p|%d|%d") someVals
      = .ok (ch! "80000000 7     c||  0xff|x|1") := by
  refine ⟨?_, ⟨_, rfl⟩, ⟨_, rfl⟩, ⟨_, rfl⟩, rfl⟩
  intro a h
  simp only [someVals, List.mem_cons, List.not_mem_nil, or_false] at h
  rcases h with rfl | rfl | rfl | rfl | rfl | rfl | rfl <;> simp [Valid, Fmt.Arg.Valid]

end Blackhole.Printf
