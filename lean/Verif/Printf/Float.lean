import Verif.Printf.Directive
import Verif.Double.Props

/-! # Directives of `sprintf` for floating-point numbers and pointers -/

namespace Blackhole.Printf

open Fmt (Err Spec)
open FmtArgs (Val)

/-- What is known of `write_double` (C71): how numbers and words fill their fields. -/
structure Renders (lib : Double.Libc) (fd : Spec → Nat → Except Err Str) : Prop where
  finite : ∀ spec bits, Double.Plain lib spec bits → fd spec bits = .ok (Double.field lib spec bits)
  word : ∀ spec bits small big, Double.Known spec → bits < 2 ^ 64 → spec.width < 2 ^ 31 →
    (Double.NotANumber bits ∧ small = ch! "nan" ∧ big = ch! "NAN")
      ∨ (Double.Infinite bits ∧ small = ch! "inf" ∧ big = ch! "INF") →
    fd spec bits = .ok (Fmt.textField { spec with precision := none }
      (Double.signOf spec bits ++ Double.wordOf spec small big))

theorem writeAll_single (lib : Double.Libc) (spec : Spec) (bits : Nat) :
    Double.writeAll lib Buffer.Buf.init [.number spec bits] = Double.writeDouble lib true spec bits Buffer.Buf.init := by
  simp only [Double.writeAll, bind, Except.bind]
  cases Double.writeDouble lib true spec bits Buffer.Buf.init <;> rfl

theorem doubleText_renders (lib : Double.Libc) (hlib : lib.Sane) : Renders lib (doubleText lib) := by
  constructor
  · intro spec bits h
    by_cases hl : (Double.field lib spec bits).length < 2 ^ 61
    · obtain ⟨b, e, hb⟩ := Double.C71_numbers_partial lib hlib [.number spec bits]
        (by intro p hp; rw [List.mem_singleton] at hp; subst hp; exact h) (by simpa [Double.Piece.expected] using hl)
      rw [writeAll_single] at e
      simp only [doubleText, e, hb]
      simp [Double.Piece.expected]
    · exfalso
      apply hl
      have h1 := h.width
      have h2 := h.size
      have h3 : (Double.signOf spec bits).length ≤ 1 := by
        unfold Double.signOf
        split
        · simp
        · split
          · split <;> simp
          · simp
      unfold Double.field Fmt.layout
      simp only
      cases spec.align <;> simp only [List.length_append, List.length_replicate] <;> omega
  · intro spec bits small big hk hb hw hn
    obtain ⟨b, e, hb⟩ := Double.C71_words lib hlib [] (by simp) spec bits hk hb hw (by simp) small big hn
    rw [List.nil_append, writeAll_single] at e
    simp only [doubleText, e, hb]
    simp

theorem adjust_double (S : Spec) (bits : Nat) :
    adjust S (.arg (.double bits)) = if S.fill = '0' then { S with align := .numeric } else S := by
  simp [adjust, isZeroInt, anyInt, isNumeric]

theorem writeTyped_double (fd : Spec → Nat → Except Err Str) (S : Spec) (bits k : Nat) (c : Char) :
    writeTyped fd S (convert k c (.arg (.double bits))) c = fd { S with type := some c } bits := by
  simp [writeTyped, convert, anyInt, writeVal]

theorem known_float (S : Spec) (conv : Conv) (h : conv.isFloat = true) :
    Double.Known { S with type := some conv.print } := by
  refine .inr ⟨conv.print, ?_, rfl⟩
  cases conv <;> simp [Conv.isFloat] at h <;> decide

theorem sign_float (S : Spec) (flags : List Flag) (bits : Nat)
    (hs : S.sign = decide (.plus ∈ flags ∨ .space ∈ flags)) (hp : S.plus = decide (.plus ∈ flags)) :
    Double.signOf S bits = floatSign flags bits := by
  unfold Double.signOf floatSign
  rw [hs, hp]
  by_cases h1 : Flag.plus ∈ flags <;> by_cases h2 : Flag.space ∈ flags <;> simp [h1, h2]

theorem float_case {lib : Double.Libc} {fd : Spec → Nat → Except Err Str} (hfd : Renders lib fd) (d : Directive)
    (w p : Option Int) (bits : Nat) (hc : d.conv.isFloat = true)
    (hz : .zero ∈ d.flags → isLeft d w = false ∧ d.conv ≠ .a ∧ d.conv ≠ .A) (hb : bits < 2 ^ 64)
    (hf : Double.Finite bits) (hs : (magnitudeText lib d p bits).length < 2 ^ 31 - 1)
    (hw : (w.getD 0).natAbs < 2 ^ 31) :
    writeTyped fd (adjust (specOf d w p) (.arg (.double bits))) (convert d.length.bits d.conv.print (.arg (.double bits)))
      d.conv.print = .ok (floatText lib d w p bits) := by
  rw [writeTyped_double, adjust_double]
  have e1 := specOf_width d w p
  have e2 := specOf_fill d w p
  have e3 := specOf_align d w p
  have e4 := specOf_hash d w p
  have e5 := specOf_precision d w p
  have e6 := specOf_sign d w p
  have e7 := specOf_plus d w p
  have key : ∀ S : Spec, S.width = (w.getD 0).natAbs → S.fill = (if .zero ∈ d.flags then '0' else ' ') →
      S.align = (if .zero ∈ d.flags then .numeric else if isLeft d w then .left else .right) →
      S.hash = decide (.hash ∈ d.flags) → S.precision = effective p →
      S.sign = decide (.plus ∈ d.flags ∨ .space ∈ d.flags) → S.plus = decide (.plus ∈ d.flags) →
      fd { S with type := some d.conv.print } bits = .ok (floatText lib d w p bits) := by
    intro S k1 k2 k3 k4 k5 k6 k7
    have hdig : Double.digitsOf lib { S with type := some d.conv.print } bits = magnitudeText lib d p bits := by
      simp only [Double.digitsOf, magnitudeText, k4, k5, Option.getD_some]
    have hsg : Double.signOf { S with type := some d.conv.print } bits = floatSign d.flags bits :=
      sign_float _ _ _ k6 k7
    have hshape : Shape { S with type := some d.conv.print } (isLeft d w) (decide (.zero ∈ d.flags))
        (w.getD 0).natAbs (effective p) := by
      refine ⟨k5, k1, ?_, ?_⟩
      · simp only [k3]; by_cases h : Flag.zero ∈ d.flags <;> simp [h]
      · simp only [k2]; by_cases h : Flag.zero ∈ d.flags <;> simp [h]
    rw [hfd.finite _ _ ⟨known_float S d.conv hc, hb, hf, by rw [hshape.width]; exact hw, by rw [hdig]; exact hs, ?_, ?_⟩]
    · unfold Double.field
      rw [hdig, hsg, layout_field hshape (fun h => (hz (of_decide_eq_true h)).1)]
      congr 1
      unfold floatText
      by_cases h : Flag.zero ∈ d.flags
      · rw [if_neg (by have := (hz h).2; simp [this])]
        simp
      · simp only [h, decide_false]
        generalize (if d.conv = .a ∨ d.conv = .A then 2 else 0) = k
        generalize hm : magnitudeText lib d p bits = m
        have hl : (floatSign d.flags bits ++ m.take k).length + (m.drop k).length
            = (floatSign d.flags bits).length + m.length := by
          simp only [List.length_append, List.length_take, List.length_drop]; omega
        unfold field
        simp only [hl]
        cases isLeft d w <;> simp [List.append_assoc]
    · intro h
      left
      simp only [k3, k2] at h ⊢
      by_cases hzz : Flag.zero ∈ d.flags
      · simp [hzz] at h
      · simp [hzz]
    · intro h
      simp only [k3] at h
      by_cases hzz : Flag.zero ∈ d.flags
      · simp [hzz] at h
      · rw [if_neg hzz] at h
        revert h
        cases isLeft d w <;> simp
  by_cases hzz : Flag.zero ∈ d.flags
  · have hfill : (specOf d w p).fill = '0' := by rw [e2, if_pos hzz]
    rw [if_pos hfill]
    exact key { specOf d w p with align := .numeric } e1 e2 (by rw [if_pos hzz]) e4 e5 e6 e7
  · have hfill : ¬ (specOf d w p).fill = '0' := by rw [e2, if_neg hzz]; decide
    rw [if_neg hfill]
    exact key (specOf d w p) e1 e2 (by rw [if_neg hzz]; exact e3) e4 e5 e6 e7

theorem word_case {lib : Double.Libc} {fd : Spec → Nat → Except Err Str} (hfd : Renders lib fd) (d : Directive)
    (w p : Option Int) (bits : Nat) (small big : Str) (hc : d.conv.isFloat = true) (hz : .zero ∉ d.flags)
    (hb : bits < 2 ^ 64) (hn : (Double.NotANumber bits ∧ small = ch! "nan" ∧ big = ch! "NAN")
      ∨ (Double.Infinite bits ∧ small = ch! "inf" ∧ big = ch! "INF"))
    (hw : (w.getD 0).natAbs < 2 ^ 31) :
    writeTyped fd (adjust (specOf d w p) (.arg (.double bits))) (convert d.length.bits d.conv.print (.arg (.double bits)))
      d.conv.print = .ok (wordText d w bits small big) := by
  rw [writeTyped_double, adjust_double]
  have e2 : (specOf d w p).fill = ' ' := by rw [specOf_fill, if_neg hz]
  rw [if_neg (by rw [e2]; decide)]
  rw [hfd.word _ _ small big (known_float _ d.conv hc) hb (by simp only [specOf_width]; exact hw) hn]
  have hsg : Double.signOf { specOf d w p with type := some d.conv.print } bits = floatSign d.flags bits :=
    sign_float _ _ _ (specOf_sign d w p) (specOf_plus d w p)
  have hwd : Double.wordOf { specOf d w p with type := some d.conv.print } small big
      = if d.conv.isCapital then big else small := by
    have hcap : Double.capital { specOf d w p with type := some d.conv.print } ↔ d.conv.isCapital = true := by
      unfold Double.capital
      simp only [Option.some.injEq]
      cases d.conv <;> decide
    unfold Double.wordOf
    by_cases h : d.conv.isCapital = true
    · rw [if_pos (hcap.mpr h), if_pos h]
    · rw [if_neg (fun h' => h (hcap.mp h')), if_neg h]
  rw [hsg, hwd]
  congr 1
  unfold Fmt.textField wordText field Fmt.cutText
  simp only [specOf_width, specOf_align, e2, List.length_append]
  generalize (if d.conv.isCapital then big else small) = wd
  cases isLeft d w <;> simp [List.append_assoc]

theorem pointer_case (fd : Spec → Nat → Except Err Str) (d : Directive) (w p : Option Int) (n : Nat) (hc : d.conv = .p)
    (hp : effective p = none) (hfl : ∀ f ∈ d.flags, f = .minus) (hn : n < 2 ^ 64) :
    writeTyped fd (adjust (specOf d w p) (.ptr n)) (convert d.length.bits d.conv.print (.ptr n)) d.conv.print
      = .ok (field (isLeft d w) false (w.getD 0).natAbs [] (ch! "0x" ++ Nat.toDigits 16 n)) := by
  have hz : Flag.zero ∉ d.flags := fun h => by cases hfl _ h
  have e2 : (specOf d w p).fill = ' ' := by rw [specOf_fill, if_neg hz]
  have hadj : adjust (specOf d w p) (.ptr n) = specOf d w p := by
    unfold adjust
    simp [isZeroInt, anyInt, e2]
  rw [hadj, hc]
  have hwt : writeTyped fd (specOf d w p) (convert d.length.bits Conv.p.print (.ptr n)) Conv.p.print
      = writeInt 64 { specOf d w p with sign := false, plus := false, minus := false, hash := true, type := some 'x' } n := by
    simp [writeTyped, convert, anyInt, writeVal, writeVal.go, Conv.print]
  rw [hwt, writeInt_eq 64 (.inr rfl) _ _ (by omega) (by omega)]
  rw [intDigits_conv _ .x rfl rfl]
  simp only [if_true]
  congr 1
  rw [layoutInt_small (by intro q hq; simp only [specOf_precision, hp] at hq; cases hq)]
  have hsign : Fmt.signText
      { specOf d w p with sign := false, plus := false, minus := false, hash := true, type := some 'x' } (n : Int) = [] := by
    unfold Fmt.signText
    rw [if_neg (by omega)]
    rfl
  rw [hsign]
  have hshape : Shape { specOf d w p with sign := false, plus := false, minus := false, hash := true, type := some 'x' }
      (isLeft d w) false (w.getD 0).natAbs none := ⟨hp, specOf_width d w p, specOf_align d w p, e2⟩
  rw [layout_field hshape (by intro h; cases h)]
  simp only [hashText, Conv.digits, Int.natAbs_natCast, List.nil_append]
  unfold field
  simp only [List.length_append, List.length_nil, Nat.zero_add]
  cases isLeft d w <;> simp [List.append_assoc]

end Blackhole.Printf
