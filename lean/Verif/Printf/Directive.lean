import Verif.Printf.Parse

/-! # A directive of `sprintf` prints what C prints -/

namespace Blackhole.Printf

open Fmt (Err Spec Next peek isDigit parseNonneg charValue)
open FmtArgs (Val)

/-- The specification before the type is known. -/
def specOf (d : Directive) (w p : Option Int) : Spec :=
  { setWidth (d.flags.foldl applyFlag { align := .right }) w with precision := effective p }

theorem anyInt_of_isInt {bits : Nat} {z : Int} {v : Val} (h : IsInt bits z v) : anyInt v = some (bits, z) := by
  cases h with
  | char hc =>
    simp only [anyInt, charValue, Fmt.codeOf]
    rename_i c
    have : c < '\x80' ↔ c.toNat < 128 := Iff.rfl
    simp only [this]
    congr 2
  | bool => rfl
  | _ => rfl

theorem specOf_width (d : Directive) (w p : Option Int) : (specOf d w p).width = (w.getD 0).natAbs := by
  cases w with
  | none => simp [specOf, setWidth, fold_width]
  | some z => simp [specOf, setWidth]

theorem specOf_fill (d : Directive) (w p : Option Int) :
    (specOf d w p).fill = if .zero ∈ d.flags then '0' else ' ' := by
  cases w <;> simp [specOf, setWidth, fold_fill]

theorem specOf_align (d : Directive) (w p : Option Int) :
    (specOf d w p).align = if isLeft d w then .left else .right := by
  cases w with
  | none => simp [specOf, setWidth, fold_align, isLeft]
  | some z =>
    simp only [specOf, setWidth, fold_align, isLeft]
    by_cases hz : z < 0
    · simp [hz]
    · by_cases hm : Flag.minus ∈ d.flags <;> simp [hz, hm]

theorem specOf_sign (d : Directive) (w p : Option Int) :
    (specOf d w p).sign = decide (.plus ∈ d.flags ∨ .space ∈ d.flags) := by
  cases w <;> simp [specOf, setWidth, fold_sign]

theorem specOf_plus (d : Directive) (w p : Option Int) : (specOf d w p).plus = decide (.plus ∈ d.flags) := by
  cases w <;> simp [specOf, setWidth, fold_plus]

theorem specOf_hash (d : Directive) (w p : Option Int) : (specOf d w p).hash = decide (.hash ∈ d.flags) := by
  cases w <;> simp [specOf, setWidth, fold_hash]

theorem specOf_precision (d : Directive) (w p : Option Int) : (specOf d w p).precision = effective p := rfl

/-- The header, the precision and the argument of a directive. -/
theorem directive_result (fd : Spec → Nat → Except Err Str) (args : List Val) (d : Directive) (rest : Str)
    (hw0 : d.width ≠ some (.lit 0)) (hk : ∀ k, d.index = some k → k < 2 ^ 31)
    {n n1 n2 : Nat} {next next1 next2 : Next} {w p : Option Int}
    {r : Except Err (Val × Next)}
    (hw : NumIs args d.width n w n1) (hm1 : Moves n n1 next next1)
    (hp : NumIs args (d.precision.getD none) n1 p n2) (hm2 : Moves n1 n2 next1 next2)
    (hg : ∀ s, s ≠ [] → getArg args next2 s d.index = r) :
    directive fd args next (d.print.tail ++ rest) =
      match r with
      | .error e => .error e
      | .ok (v, next3) =>
        match writeTyped fd (adjust (specOf d w p) v) (convert d.length.bits d.conv.print v) d.conv.print with
        | .error e => .error e
        | .ok out => .ok (out, next3, rest) := by
  have htext : d.print.tail ++ rest = indexText d.index ++ (d.flags.map Flag.print ++ (widthText d.width
      ++ (precisionText d.precision ++ (d.length.print ++ d.conv.print :: rest)))) := by
    simp only [Directive.print, List.tail_cons, List.append_assoc, List.cons_append, List.nil_append]
  rw [htext]
  have hst := stops_tail d.precision d.length d.conv rest
  have hhead : parseHeader args next { align := .right } (indexText d.index ++ (d.flags.map Flag.print
      ++ (widthText d.width ++ (precisionText d.precision ++ (d.length.print ++ d.conv.print :: rest)))))
      = .ok (d.index, setWidth (d.flags.foldl applyFlag { align := .right }) w, next1,
          precisionText d.precision ++ (d.length.print ++ d.conv.print :: rest)) := by
    cases hi : d.index with
    | none => exact parseHeader_auto args _ d.flags d.width _ hst hw0 hw hm1
    | some k => exact parseHeader_index args _ k (hk k hi) d.flags d.width _ hst hw0 hw hm1
  unfold directive
  rw [hhead]
  simp only [bind, Except.bind]
  have ht := tail_peek d.length d.conv rest
  have hprec : (setWidth (d.flags.foldl applyFlag { align := .right }) w).precision = none := by
    cases w <;> simp [setWidth, fold_precision]
  rw [parsePrecision_spec args _ hprec d.precision _ ht.1 ht.2.1 ht.2.2 hp hm2]
  simp only
  rw [hg _ (by simp)]
  cases r with
  | error e => rfl
  | ok x =>
    obtain ⟨v, next3⟩ := x
    simp only
    rw [parseLength_spec]
    simp only [specOf]
    cases writeTyped fd _ _ _ <;> rfl

theorem directive_eq (fd : Spec → Nat → Except Err Str) (args : List Val) (d : Directive) (rest : Str)
    (hw0 : d.width ≠ some (.lit 0)) (hk : ∀ k, d.index = some k → k < 2 ^ 31)
    {n n1 n2 : Nat} {next next1 next2 next3 : Next} {w p : Option Int} {v : Val}
    (hw : NumIs args d.width n w n1) (hm1 : Moves n n1 next next1)
    (hp : NumIs args (d.precision.getD none) n1 p n2) (hm2 : Moves n1 n2 next1 next2)
    (hg : ∀ s, getArg args next2 s d.index = .ok (v, next3)) :
    directive fd args next (d.print.tail ++ rest) =
      match writeTyped fd (adjust (specOf d w p) v) (convert d.length.bits d.conv.print v) d.conv.print with
      | .error e => .error e
      | .ok out => .ok (out, next3, rest) :=
  directive_result fd args d rest hw0 hk hw hm1 hp hm2 (fun s _ => hg s)

/-! ## What is written -/

theorem adjust_int {bits : Nat} {z : Int} {v : Val} (h : IsInt bits z v) (S : Spec) :
    adjust S v = (let S := if S.hash && (z == 0) then { S with hash := false } else S
      if S.fill = '0' then { S with align := .numeric } else S) := by
  have hi := anyInt_of_isInt h
  have hn : isNumeric v = true := by
    unfold isNumeric
    split
    · rfl
    · rw [hi]; rfl
  have hz : isZeroInt v = (z == 0) := by unfold isZeroInt; rw [hi]
  unfold adjust
  rw [hz]
  simp only [hn, if_true]

theorem emod_range (z : Int) (k : Nat) : 0 ≤ z % 2 ^ k ∧ z % 2 ^ k < 2 ^ k := by
  have : (0 : Int) < 2 ^ k := Int.pow_pos (by decide)
  exact ⟨Int.emod_nonneg _ (by omega), Int.emod_lt_of_pos _ this⟩

theorem converted_range (len : Len) (conv : Conv) (z : Int) :
    -2 ^ len.bits < converted len conv z ∧ converted len conv z < 2 ^ len.bits := by
  unfold converted
  have hb := emod_range z len.bits
  have h1 := Int.le_bmod (x := z) (m := 2 ^ len.bits) (Nat.two_pow_pos _)
  have h2 := Int.bmod_lt (x := z) (m := 2 ^ len.bits) (Nat.two_pow_pos _)
  cases len <;> simp only [Len.bits] at * <;> split <;> omega

/-- The argument after its conversion. -/
theorem convert_int {z : Int} {v : Val} (len : Len) (conv : Conv) (h : IsInt len.argBits z v)
    (hn : conv.isNumber = true) :
    (len.bits ≤ 32 → (∃ a, convert len.bits conv.print v = a ∧ (anyInt a).isSome
        ∧ ∀ fd S, writeVal fd S a = writeInt 32 S (converted len conv z)))
    ∧ (len.bits = 64 → (∃ a, convert len.bits conv.print v = a ∧ (anyInt a).isSome
        ∧ ∀ fd S, writeVal fd S a = writeInt 64 S (converted len conv z))) := by
  have hi := anyInt_of_isInt h
  have hsig : (decide (conv.print = 'd' ∨ conv.print = 'i')) = conv.isSigned := by
    cases conv <;> first | rfl | decide
  have hb := emod_range z len.bits
  constructor
  · intro h32
    refine ⟨_, rfl, ?_⟩
    unfold convert
    rw [hi]
    simp only
    rw [if_pos h32, hsig]
    cases hs : conv.isSigned with
    | true =>
      rw [if_pos rfl]
      refine ⟨rfl, fun fd S => ?_⟩
      simp only [writeVal, converted, hs, if_true]
    | false =>
      rw [if_neg (by decide)]
      refine ⟨rfl, fun fd S => ?_⟩
      simp only [writeVal, converted, hs, Bool.false_eq_true, if_false]
      rw [Int.toNat_of_nonneg hb.1]
  · intro h64
    have ha : len.argBits = 64 := by unfold Len.argBits; omega
    rw [ha] at hi
    refine ⟨_, rfl, ?_⟩
    unfold convert
    rw [hi]
    simp only
    rw [if_neg (by omega), hsig]
    rw [h64] at hb
    cases hs : conv.isSigned with
    | true =>
      rw [if_pos rfl]
      refine ⟨rfl, fun fd S => ?_⟩
      simp only [writeVal, converted, hs, if_true, h64]
      congr 1
      exact Int.emod_bmod z (2 ^ 64)
    | false =>
      rw [if_neg (by decide)]
      refine ⟨rfl, fun fd S => ?_⟩
      simp only [writeVal, converted, hs, Bool.false_eq_true, if_false, h64]
      rw [Int.toNat_of_nonneg hb.1]

theorem writeTyped_number (fd : Spec → Nat → Except Err Str) (S : Spec) (a : Val) (conv : Conv) (bits : Nat) (v : Int)
    (hn : conv.isNumber = true) (ha : (anyInt a).isSome) (hw : ∀ S, writeVal fd S a = writeInt bits S v) :
    writeTyped fd S a conv.print = writeInt bits { S with type := some (typeOf conv) } v := by
  unfold writeTyped
  rw [if_pos ha]
  cases conv <;> simp [Conv.print, typeOf, hw, Conv.isNumber] at hn ⊢

theorem number_case (fd : Spec → Nat → Except Err Str) (d : Directive) (w p : Option Int) (a : Val) (z : Int)
    (hn : d.conv.isNumber = true) (hi : IsInt d.length.argBits z a)
    (hag : Agrees d w p z (converted d.length d.conv z)) :
    writeTyped fd (adjust (specOf d w p) a) (convert d.length.bits d.conv.print a) d.conv.print
      = .ok (numberText d w p (converted d.length d.conv z)) := by
  have hr := converted_range d.length d.conv z
  have hc := convert_int d.length d.conv hi hn
  have hu : d.conv.isSigned = false → 0 ≤ converted d.length d.conv z := by
    intro h
    simp only [converted, h, Bool.false_eq_true, if_false]
    exact (emod_range z _).1
  have hz0 : z = 0 → converted d.length d.conv z = 0 := by
    rintro rfl
    unfold converted
    split
    · simp
    · simp
  have final : ∀ bits, (bits = 32 ∨ bits = 64) → -2 ^ bits < converted d.length d.conv z →
      converted d.length d.conv z < 2 ^ bits →
      writeInt bits { adjust (specOf d w p) a with type := some (typeOf d.conv) } (converted d.length d.conv z)
        = .ok (numberText d w p (converted d.length d.conv z)) := by
    intro bits hb h1 h2
    have key : ∀ S : Spec, S = adjust (specOf d w p) a →
        S.width = (w.getD 0).natAbs ∧ S.precision = effective p ∧ S.sign = (specOf d w p).sign
        ∧ S.plus = (specOf d w p).plus ∧ S.fill = (specOf d w p).fill
        ∧ S.align = (if .zero ∈ d.flags then .numeric else if isLeft d w then .left else .right)
        ∧ S.hash = decide (.hash ∈ d.flags ∧ z ≠ 0) := by
      rintro S rfl
      rw [adjust_int hi]
      have e1 := specOf_width d w p
      have e2 := specOf_fill d w p
      have e3 := specOf_align d w p
      have e4 := specOf_hash d w p
      have e5 := specOf_precision d w p
      by_cases hz : .zero ∈ d.flags
      · rw [if_pos hz] at e2
        by_cases hh : .hash ∈ d.flags <;> by_cases hzz : z = 0 <;> simp [hh, hzz, hz, e1, e2, e3, e4, e5]
      · rw [if_neg hz] at e2
        by_cases hh : .hash ∈ d.flags <;> by_cases hzz : z = 0 <;> simp [hh, hzz, hz, e1, e2, e3, e4, e5]
    obtain ⟨k1, k2, k3, k4, k5, k6, k7⟩ := key _ rfl
    refine writeInt_number bits hb d w p z _ _ hn hag h1 h2 hu hz0 ⟨k2, k1, ?_, ?_⟩ ?_ ?_ k7 rfl
    · simp only [k6]
      by_cases hz : .zero ∈ d.flags <;> simp [hz]
    · simp only [k5, specOf_fill]
      by_cases hz : .zero ∈ d.flags <;> simp [hz]
    · simp only [k3, specOf_sign]
    · simp only [k4, specOf_plus]
  by_cases h32 : d.length.bits ≤ 32
  · obtain ⟨b, hb, hs, hwr⟩ := hc.1 h32
    rw [hb, writeTyped_number fd _ b d.conv 32 _ hn hs (hwr fd)]
    refine final 32 (.inl rfl) ?_ ?_
    · cases hl : d.length <;> rw [hl] at hr h32 <;> simp only [Len.bits] at hr h32 <;> omega
    · cases hl : d.length <;> rw [hl] at hr h32 <;> simp only [Len.bits] at hr h32 <;> omega
  · have h64 : d.length.bits = 64 := by cases hl : d.length <;> rw [hl] at h32 <;> simp [Len.bits] at h32 ⊢
    obtain ⟨b, hb, hs, hwr⟩ := hc.2 h64
    rw [hb, writeTyped_number fd _ b d.conv 64 _ hn hs (hwr fd)]
    rw [h64] at hr
    exact final 64 (.inr rfl) hr.1 hr.2

theorem char_case (fd : Spec → Nat → Except Err Str) (d : Directive) (w p : Option Int) (a : Val) (z : Int)
    (hc : d.conv = .c) (hl : d.length = .none) (hz : .zero ∉ d.flags) (hi : IsInt 32 z a) :
    writeTyped fd (adjust (specOf d w p) a) (convert d.length.bits d.conv.print a) d.conv.print
      = .ok (field (isLeft d w) false (w.getD 0).natAbs [] [Char.ofNat (z % 256).toNat]) := by
  have hany := anyInt_of_isInt hi
  have hb := emod_range z 32
  have hconv : convert d.length.bits d.conv.print a = .arg (.uint (z % 2 ^ 32).toNat) := by
    unfold convert
    rw [hany, hc, hl]
    rfl
  rw [hconv, hc]
  have hwt : writeTyped fd (adjust (specOf d w p) a) (.arg (.uint (z % 2 ^ 32).toNat)) Conv.c.print
      = writeChar { adjust (specOf d w p) a with type := some 'c' }
          (charValue (Char.ofNat (z % 256).toNat)) (Char.ofNat (z % 256).toNat) := by
    have e : (((z % 2 ^ 32).toNat : Int) % 256).toNat = (z % 256).toNat := by omega
    simp only [writeTyped, anyInt, Conv.print, Option.isSome_some, if_true, toChar, e, writeVal]
    rw [if_neg (by decide)]
  rw [hwt]
  unfold writeChar
  rw [if_neg (by simp)]
  simp only [bind, Except.bind, List.nil_append]
  have hf : (specOf d w p).fill ≠ '0' := by rw [specOf_fill, if_neg hz]; decide
  have hwid : (adjust (specOf d w p) a).width = (w.getD 0).natAbs := by
    rw [adjust_int hi]
    by_cases hh : ((specOf d w p).hash && (z == 0)) = true
    · rw [if_pos hh]; simp only; rw [if_neg hf]; exact specOf_width d w p
    · rw [if_neg hh]; simp only; rw [if_neg hf]; exact specOf_width d w p
  have hal : (adjust (specOf d w p) a).align = (if isLeft d w then .left else .right) := by
    rw [adjust_int hi, ← specOf_align d w p]
    by_cases hh : ((specOf d w p).hash && (z == 0)) = true
    · rw [if_pos hh]; simp only; rw [if_neg hf]
    · rw [if_neg hh]; simp only; rw [if_neg hf]
  rw [hwid, hal]
  congr 1
  unfold field
  simp only [List.length_nil, List.length_singleton, Nat.zero_add, List.nil_append, List.append_nil]
  generalize (w.getD 0).natAbs = m
  by_cases hm : m > 1
  · rw [if_pos hm]
    cases isLeft d w <;> simp
  · rw [if_neg hm, show m - 1 = 0 by omega]
    cases isLeft d w <;> simp

theorem pad_field (S : Spec) (left : Bool) (width : Nat) (s : Str) (hw : S.width = width) (hf : S.fill = ' ')
    (ha : S.align = if left then .left else .right) : Fmt.pad S s = field left false width [] s := by
  unfold Fmt.pad field
  rw [hw, hf, ha]
  simp only [List.length_nil, Nat.zero_add, List.nil_append, List.append_nil]
  by_cases h : width > s.length
  · rw [if_pos h]; cases left <;> simp
  · rw [if_neg h, show width - s.length = 0 by omega]; cases left <;> simp

theorem text_case (fd : Spec → Nat → Except Err Str) (d : Directive) (w p : Option Int) (a : Val) (s : Str)
    (hc : d.conv = .s) (hz : .zero ∉ d.flags) (ht : IsText s a) :
    writeTyped fd (adjust (specOf d w p) a) (convert d.length.bits d.conv.print a) d.conv.print
      = .ok (field (isLeft d w) false (w.getD 0).natAbs [] (match effective p with
          | some k => s.take k
          | none => s)) := by
  have hany : anyInt a = none := by cases ht <;> rfl
  have hconv : convert d.length.bits d.conv.print a = a := by unfold convert; rw [hany]
  have hzi : isZeroInt a = false := by unfold isZeroInt; rw [hany]
  have hf : (specOf d w p).fill = ' ' := by rw [specOf_fill, if_neg hz]
  have hadj : adjust (specOf d w p) a = specOf d w p := by
    unfold adjust
    rw [hzi]
    simp only [Bool.and_false, Bool.false_eq_true, if_false]
    rw [if_neg (by rw [hf]; decide)]
  rw [hconv, hadj, hc]
  unfold writeTyped
  rw [if_neg (by rw [hany]; simp)]
  have hwr : ∀ S : Spec, S.type = some 's' → writeVal fd S a = .ok (Fmt.pad S (match S.precision with
      | some k => s.take k
      | none => s)) := by
    intro S hS
    cases ht with
    | cstr hs =>
      simp only [writeVal, Fmt.writeStr, hS, if_true, Fmt.writeStr.go]
      have hcs : Config.cstr (s ++ ['\x00']) = s := by
        unfold Config.cstr
        rw [List.takeWhile_append_of_pos]
        · simp
        · intro c hcm
          simp only [ne_eq, decide_eq_true_eq]
          rintro rfl
          exact hs hcm
      cases s with
      | nil => simp [Config.cstr]; cases S.precision <;> rfl
      | cons c s =>
        simp only [List.cons_append] at hcs ⊢
        rw [if_pos (by simp), hcs]
        cases S.precision <;> rfl
    | string =>
      simp only [writeVal, Fmt.writeStr, hS, if_true, Fmt.writeStr.go]
      cases s with
      | nil => simp [Config.cstr]; cases S.precision <;> rfl
      | cons c s => rfl
  have h := hwr { specOf d w p with type := some 's' } rfl
  have h2 := pad_field { specOf d w p with type := some 's' } (isLeft d w) (w.getD 0).natAbs
    (match effective p with
      | some k => s.take k
      | none => s) (specOf_width d w p) hf (specOf_align d w p)
  rw [show Conv.s.print = 's' from rfl, h]
  exact congrArg _ h2

end Blackhole.Printf
