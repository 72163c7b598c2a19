import Verif.Printf.Model
import Verif.Printf.Spec
import Verif.Fmt.Lemmas

/-! # Lemmas about numbers and fields of `sprintf` -/

namespace Blackhole.Printf

open Fmt (Err Spec Next Buf peek isDigit parseNonneg prepare countDigits countLoop writeLoop formatDecimal finish lower
  upper unknownType powers32 powers64 pad writeStr charValue frame layout signText intDigits refusal)
open FmtArgs (Val)

/-- What surrounds the digits. -/
def frameInt (spec : Spec) (pre : Str) (k : Nat) : Str × Str :=
  match spec.precision with
  | none => frame spec pre k
  | some p =>
    if p > k then
      let pre := if pre.getLast? = some '0' then pre.dropLast else pre
      let gap := spec.width - (pre.length + p)
      if spec.align ≠ .left then (List.replicate gap spec.fill ++ (pre ++ List.replicate (p - k) '0'), [])
      else (pre ++ List.replicate (p - k) '0', List.replicate gap spec.fill)
    else frame spec pre k

theorem frame_sub (pre : Str) (p k : Nat) (h : p > k) :
    frame { width := pre.length + p, fill := '0', align := .numeric } pre k = (pre ++ List.replicate (p - k) '0', []) := by
  unfold frame
  simp only
  rw [if_neg (by omega)]
  rw [show pre.length + p - (pre.length + k) = p - k by omega]

theorem prepareInt_spec (k : Nat) (spec : Spec) (pre : Str) :
    prepareInt k spec pre = .ok ((frameInt spec pre k).1.map some ++ List.replicate k none
      ++ (frameInt spec pre k).2.map some, (frameInt spec pre k).1.length + k) := by
  unfold prepareInt frameInt
  cases hp : spec.precision with
  | none => exact Fmt.prepare_spec k spec pre
  | some p =>
    simp only
    by_cases h : p > k
    · rw [if_pos h, if_pos h]
      generalize (if pre.getLast? = some '0' then pre.dropLast else pre) = q
      by_cases hw : q.length + p ≥ spec.width
      · rw [if_pos hw, Fmt.prepare_spec, frame_sub q p k h]
        have : spec.width - (q.length + p) = 0 := by omega
        rw [this]
        by_cases ha : spec.align ≠ .left
        · rw [if_pos ha]; simp
        · rw [if_neg ha]; simp
      · rw [if_neg hw, Fmt.prepare_spec, frame_sub q p k h]
        simp only [bind, Except.bind]
        by_cases ha : spec.align ≠ .left
        · rw [if_pos ha, if_pos ha]
          simp
          omega
        · rw [if_neg ha, if_neg ha]
          simp
    · rw [if_neg h, if_neg h]
      exact Fmt.prepare_spec k spec pre

/-- A number in its field. -/
def layoutInt (spec : Spec) (pre ds : Str) : Str :=
  (frameInt spec pre ds.length).1 ++ ds ++ (frameInt spec pre ds.length).2

theorem writeDecimal (bits abs : Nat) (hb : bits = 32 ∨ bits = 64) (habs : abs < 2 ^ bits) (spec : Spec) (pre : Str) :
    (do
      let n ← countDigits (if bits ≤ 32 then powers32 else powers64) abs
      let (b, e) ← prepareInt n spec pre
      let b ← formatDecimal (bits + 1) b e abs
      finish b) = .ok (layoutInt spec pre (Nat.toDigits 10 abs)) := by
  have hc : countDigits (if bits ≤ 32 then powers32 else powers64) abs = .ok (Nat.toDigits 10 abs).length := by
    rcases hb with rfl | rfl
    · exact Fmt.countDigits32 abs habs
    · exact Fmt.countDigits64 abs habs
  have hlt : abs < 10 ^ (bits + 1) := by
    refine Nat.lt_of_lt_of_le habs (Nat.le_trans (Nat.pow_le_pow_left (by omega : 2 ≤ 10) bits) ?_)
    exact Nat.pow_le_pow_right (by omega) (by omega)
  rw [hc]
  simp only [bind, Except.bind]
  rw [prepareInt_spec]
  simp only
  have := Fmt.formatDecimal_spec (bits + 1) abs ((frameInt spec pre (Nat.toDigits 10 abs).length).1.map some)
    (List.replicate (Nat.toDigits 10 abs).length none) ((frameInt spec pre (Nat.toDigits 10 abs).length).2.map some)
    hlt (by omega) (by simp)
  simp only [List.length_map, List.length_replicate] at this
  rw [this]
  simp only
  rw [← List.map_append, ← List.map_append, Fmt.finish_some]
  rfl

theorem writeBased (bits abs base : Nat) (hbase : 1 < base) (habs : abs < 2 ^ bits) (digits : Str) (f : Char → Char)
    (hd : ∀ d, d < base → digits[d]? = some (f (Nat.digitChar d))) (spec : Spec) (pre : Str) :
    (do
      let n ← countLoop base (bits + 1) abs
      let (b, e) ← prepareInt n spec pre
      let b ← writeLoop base digits (bits + 1) b e abs
      finish b) = .ok (layoutInt spec pre ((Nat.toDigits base abs).map f)) := by
  have hlt : abs < base ^ (bits + 1) := by
    refine Nat.lt_of_lt_of_le habs (Nat.le_trans (Nat.pow_le_pow_left (by omega : 2 ≤ base) bits) ?_)
    exact Nat.pow_le_pow_right (by omega) (by omega)
  rw [Fmt.countLoop_spec base hbase _ _ hlt (by omega)]
  simp only [bind, Except.bind]
  rw [prepareInt_spec]
  simp only
  have := Fmt.writeLoop_spec base hbase digits f hd (bits + 1) abs
    ((frameInt spec pre (Nat.toDigits base abs).length).1.map some)
    (List.replicate (Nat.toDigits base abs).length none) ((frameInt spec pre (Nat.toDigits base abs).length).2.map some)
    hlt (by omega) (by simp)
  simp only [List.length_map, List.length_replicate] at this
  rw [this]
  simp only
  rw [← List.map_append, ← List.map_append, Fmt.finish_some]
  simp [layoutInt]

theorem writeInt_eq (bits : Nat) (hb : bits = 32 ∨ bits = 64) (spec : Spec) (z : Int)
    (h1 : -2 ^ bits < z) (h2 : z < 2 ^ bits) : writeInt bits spec z =
      match intDigits spec z.natAbs with
      | some (pre, ds) => .ok (layoutInt spec (signText spec z ++ pre) ds)
      | none => .error (refusal (spec.type.getD ' ') (ch! "integer")) := by
  simp only [← Fmt.unknownType_eq]
  have habs := Fmt.abs_eq bits z h1 h2
  have hlt : z.natAbs < 2 ^ bits := by
    have e : (2 : Int) ^ bits = ((2 ^ bits : Nat) : Int) := by simp
    rw [e] at h1 h2
    omega
  have hp : (if z < 0 then (['-'], (2 ^ bits - (z % 2 ^ bits).toNat) % 2 ^ bits)
      else if spec.sign then (if spec.plus then ['+'] else [' '], (z % 2 ^ bits).toNat)
      else (([] : Str), (z % 2 ^ bits).toNat)) = (signText spec z, z.natAbs) := by
    rw [← habs]
    unfold signText
    split
    · rfl
    · split
      · rfl
      · rfl
  have ap (s : Str) : (if spec.hash = true then signText spec z ++ s else signText spec z)
      = signText spec z ++ (if spec.hash = true then s else []) := by
    split <;> simp
  unfold writeInt intDigits
  simp only
  rw [hp]
  simp only
  split
  · rename_i heq
    simp only [heq]
    simpa using writeDecimal bits z.natAbs hb hlt spec _
  · rename_i heq
    simp only [heq]
    simpa using writeDecimal bits z.natAbs hb hlt spec _
  · rename_i heq
    simp only [heq]
    rw [ap, ← List.map_id (Nat.toDigits 16 z.natAbs)]
    exact writeBased bits _ 16 (by omega) hlt lower id (Fmt.lower_table 16 (by omega)) spec _
  · rename_i heq
    simp only [heq]
    rw [ap]
    exact writeBased bits _ 16 (by omega) hlt upper Char.toUpper Fmt.upper_table spec _
  · rename_i heq
    simp only [heq]
    rw [ap, ← List.map_id (Nat.toDigits 2 z.natAbs)]
    exact writeBased bits _ 2 (by omega) hlt lower id (Fmt.lower_table 2 (by omega)) spec _
  · rename_i heq
    simp only [heq]
    rw [ap, ← List.map_id (Nat.toDigits 2 z.natAbs)]
    exact writeBased bits _ 2 (by omega) hlt lower id (Fmt.lower_table 2 (by omega)) spec _
  · rename_i heq
    simp only [heq]
    rw [ap, ← List.map_id (Nat.toDigits 8 z.natAbs)]
    exact writeBased bits _ 8 (by omega) hlt lower id (Fmt.lower_table 8 (by omega)) spec _
  · rename_i c h1 h2 h3 h4 h5 h6 heq
    simp only [heq]
    simp only [Option.getD_some]

/-- Without a precision, numbers are those of `format`. -/
theorem writeInt_plain (bits : Nat) (spec : Spec) (z : Int) (h : spec.precision = none) :
    writeInt bits spec z = Fmt.writeInt bits false spec z := by
  have hp : ∀ k pre, prepareInt k spec pre = prepare k spec pre := by
    intro k pre; unfold prepareInt; rw [h]
  unfold writeInt Fmt.writeInt
  simp only [hp]
  rfl

/-! ## Fields -/

/-- The specification that the flags, the width and the precision of a directive lead to. -/
structure Shape (S : Spec) (left zero : Bool) (width : Nat) (p : Option Nat) : Prop where
  precision : S.precision = p
  width : S.width = width
  align : S.align = if zero then .numeric else if left then .left else .right
  fill : S.fill = if zero then '0' else ' '

theorem layout_field {S : Spec} {left zero : Bool} {width : Nat} {p : Option Nat} (h : Shape S left zero width p)
    (hz : zero = true → left = false) (lead ds : Str) : layout S lead ds = field left zero width lead ds := by
  unfold layout field
  rw [h.align, h.fill, h.width]
  cases zero with
  | true => rw [hz rfl]; simp
  | false => cases left <;> simp

theorem layoutInt_small {S : Spec} {lead ds : Str} (h : ∀ p, S.precision = some p → p ≤ ds.length) :
    layoutInt S lead ds = layout S lead ds := by
  unfold layoutInt frameInt
  cases hp : S.precision with
  | none => exact Fmt.frame_text S lead ds
  | some p =>
    simp only
    rw [if_neg (by have := h p hp; omega)]
    exact Fmt.frame_text S lead ds

theorem layoutInt_large {S : Spec} {left : Bool} {width p : Nat} (h : Shape S left false width (some p)) {lead ds : Str}
    (hp : p > ds.length) : layoutInt S lead ds =
      field left false width (if lead.getLast? = some '0' then lead.dropLast else lead)
        (List.replicate (p - ds.length) '0' ++ ds) := by
  unfold layoutInt frameInt
  rw [h.precision]
  simp only
  rw [if_pos hp]
  generalize (if lead.getLast? = some '0' then lead.dropLast else lead) = q
  unfold field
  simp only [List.length_append, List.length_replicate]
  rw [show p - ds.length + ds.length = p by omega, h.align, h.fill, h.width]
  cases left <;> simp

theorem layoutInt_field {S : Spec} {left zero : Bool} {width : Nat} {p : Option Nat} (h : Shape S left zero width p)
    (hz : zero = true → left = false ∧ p = none) {lead : Str} (hl : lead.getLast? ≠ some '0') (ds : Str) :
    layoutInt S lead ds = field left zero width lead (List.replicate (p.getD 0 - ds.length) '0' ++ ds) := by
  by_cases hp : p.getD 0 > ds.length
  · cases p with
    | none => simp at hp
    | some p =>
      have : zero = false := by
        cases zero with
        | false => rfl
        | true => have := (hz rfl).2; cases this
      subst this
      rw [layoutInt_large h hp, if_neg hl]
      rfl
  · rw [layoutInt_small, layout_field h (fun e => (hz e).1)]
    · rw [show p.getD 0 - ds.length = 0 by omega]; rfl
    · intro q hq
      rw [h.precision] at hq
      subst hq
      simp only [Option.getD_some] at hp
      omega

theorem field_zero_head (left zero : Bool) (width : Nat) (ds : Str) :
    field left zero width ['0'] ds = field left zero width [] ('0' :: ds) := by
  unfold field
  have : ('0' :: ds).length = 1 + ds.length := by simp; omega
  simp only [List.length_cons, List.length_nil]
  rw [show 0 + 1 + ds.length = ds.length + 1 by omega, show 0 + (ds.length + 1) = ds.length + 1 by omega]
  cases left with
  | true => simp
  | false =>
    cases zero with
    | false => simp
    | true =>
      simp only [Bool.false_eq_true, if_false, if_true, List.nil_append]
      rw [show ['0'] ++ List.replicate (width - (ds.length + 1)) '0'
        = List.replicate (width - (ds.length + 1)) '0' ++ ['0'] from by
          rw [← List.replicate_succ', List.replicate_succ]; rfl]
      simp

theorem layoutInt_octal {S : Spec} {left zero : Bool} {width : Nat} {p : Option Nat} (h : Shape S left zero width p)
    (hz : zero = true → left = false ∧ p = none) (ds : Str) :
    layoutInt S ['0'] ds = field left zero width []
      (if p.getD 0 > ds.length then List.replicate (p.getD 0 - ds.length) '0' ++ ds else '0' :: ds) := by
  by_cases hp : p.getD 0 > ds.length
  · rw [if_pos hp]
    cases p with
    | none => simp at hp
    | some p =>
      have : zero = false := by
        cases zero with
        | false => rfl
        | true => have := (hz rfl).2; cases this
      subst this
      rw [layoutInt_large h hp]
      rfl
  · rw [if_neg hp, layoutInt_small, layout_field h (fun e => (hz e).1), field_zero_head]
    intro q hq
    rw [h.precision] at hq
    subst hq
    simp only [Option.getD_some] at hp
    omega

/-! ## Digits -/

theorem head_toDigits (base : Nat) (h1 : 1 < base) (h2 : base ≤ 16) (n : Nat) (hn : 0 < n) :
    (Nat.toDigits base n).head? ≠ some '0' := by
  induction n using Nat.strongRecOn with
  | _ n ih =>
    rcases Nat.lt_or_ge n base with h | h
    · rw [Nat.toDigits_of_lt_base h]
      have : ∀ d : Fin 16, 0 < d.val → Nat.digitChar d.val ≠ '0' := by decide
      simpa using this ⟨n, by omega⟩ hn
    · rw [Nat.toDigits_of_base_le h1 h, List.head?_append]
      have hi := ih _ (Nat.div_lt_self hn h1) (Nat.div_pos h (by omega))
      cases hd : Nat.toDigits base (n / base) with
      | nil => exact absurd hd Nat.toDigits_ne_nil
      | cons c cs => rw [hd] at hi; simpa using hi

theorem digits_ne_nil (conv : Conv) (n : Nat) : conv.digits n ≠ [] := by
  cases conv <;> simp [Conv.digits, Nat.toDigits_ne_nil]

theorem digits_zero (conv : Conv) : conv.digits 0 = ['0'] := by cases conv <;> decide

/-- What C prints for digits, if zero is not printed with precision zero. -/
theorem digitsOf_eq (conv : Conv) (flags : List Flag) (p : Option Nat) (v : Int) (he : v = 0 → p ≠ some 0) :
    digitsOf conv flags p v =
      if conv = .o ∧ .hash ∈ flags ∧ v ≠ 0 ∧ ¬ p.getD 0 > (conv.digits v.natAbs).length then '0' :: conv.digits v.natAbs
      else List.replicate (p.getD 0 - (conv.digits v.natAbs).length) '0' ++ conv.digits v.natAbs := by
  unfold digitsOf
  by_cases hv : v = 0
  · subst hv
    have hp : p.getD 1 = (p.getD 0 - 1) + 1 := by
      cases p with
      | none => rfl
      | some q =>
        have : q ≠ 0 := fun e => he rfl (by rw [e])
        simp only [Option.getD_some]
        omega
    have hd : (conv.digits (Int.natAbs 0)) = ['0'] := digits_zero conv
    rw [hd]
    simp only [if_pos, ne_eq, not_true_eq_false, false_and, and_false, if_false, List.length_nil, List.append_nil,
      List.length_cons, Nat.zero_add, Nat.sub_zero]
    rw [hp, if_neg, List.replicate_succ']
    rintro ⟨_, _, h⟩
    exact h (by rw [List.replicate_succ]; rfl)
  · rw [if_neg hv]
    have hl : 0 < (conv.digits v.natAbs).length := List.length_pos_iff.2 (digits_ne_nil _ _)
    have hp : p.getD 1 - (conv.digits v.natAbs).length = p.getD 0 - (conv.digits v.natAbs).length := by
      cases p with
      | none => simp only [Option.getD_none]; omega
      | some q => rfl
    simp only
    rw [hp]
    by_cases hc : conv = .o ∧ .hash ∈ flags
    · obtain ⟨rfl, hh⟩ := hc
      have h8 : (Conv.o.digits v.natAbs).head? ≠ some '0' := head_toDigits 8 (by omega) (by omega) _ (by omega)
      by_cases hg : p.getD 0 > (Conv.o.digits v.natAbs).length
      · rw [if_neg, if_neg]
        · rintro ⟨_, _, _, h⟩; exact h hg
        · rintro ⟨_, _, h⟩
          rw [show p.getD 0 - (Conv.o.digits v.natAbs).length
            = p.getD 0 - (Conv.o.digits v.natAbs).length - 1 + 1 by omega, List.replicate_succ] at h
          exact h rfl
      · rw [show p.getD 0 - (Conv.o.digits v.natAbs).length = 0 by omega, List.replicate_zero, List.nil_append,
          if_pos ⟨rfl, hh, h8⟩, if_pos ⟨rfl, hh, hv, hg⟩]
    · rw [if_neg, if_neg]
      · rintro ⟨a, b, _⟩; exact hc ⟨a, b⟩
      · rintro ⟨a, b, _⟩; exact hc ⟨a, b⟩

/-! ## Numbers as C prints them -/

/-- The letter that the number is written with. -/
def typeOf : Conv → Char
  | .o => 'o'
  | .x => 'x'
  | .X => 'X'
  | _ => 'd'

/-- What the flag `#` puts before the digits. -/
def hashText : Conv → Str
  | .o => ['0']
  | .x => ch! "0x"
  | .X => ch! "0X"
  | _ => []

theorem intDigits_conv (S : Spec) (conv : Conv) (hc : conv.isNumber = true) (ht : S.type = some (typeOf conv)) (n : Nat) :
    intDigits S n = some (if S.hash then hashText conv else [], conv.digits n) := by
  unfold intDigits
  rw [ht]
  cases conv <;> simp [typeOf, hashText, Conv.digits, Conv.isNumber] at hc ⊢

theorem writeInt_number (bits : Nat) (hb : bits = 32 ∨ bits = 64) (d : Directive) (w p : Option Int) (z v : Int) (S : Spec)
    (hn : d.conv.isNumber = true) (ha : Agrees d w p z v) (h1 : -2 ^ bits < v) (h2 : v < 2 ^ bits)
    (hu : d.conv.isSigned = false → 0 ≤ v) (hz0 : z = 0 → v = 0)
    (hs : Shape S (isLeft d w) (decide (.zero ∈ d.flags)) (w.getD 0).natAbs (effective p))
    (hsign : S.sign = decide (.plus ∈ d.flags ∨ .space ∈ d.flags)) (hplus : S.plus = decide (.plus ∈ d.flags))
    (hhash : S.hash = decide (.hash ∈ d.flags ∧ z ≠ 0)) (ht : S.type = some (typeOf d.conv)) :
    writeInt bits S v = .ok (numberText d w p v) := by
  rw [writeInt_eq bits hb S v h1 h2, intDigits_conv S d.conv hn ht]
  simp only
  congr 1
  have hzero : decide (.zero ∈ d.flags) = true → isLeft d w = false ∧ effective p = none := by
    intro h
    have := of_decide_eq_true h
    exact ⟨ha.zero_left this, ha.zero_precision this⟩
  have hdec : (decide (.zero ∈ d.flags ∧ effective p = none)) = decide (.zero ∈ d.flags) := by
    by_cases h : .zero ∈ d.flags
    · simp [h, ha.zero_precision h]
    · simp [h]
  unfold numberText
  rw [hdec, digitsOf_eq _ _ _ _ ha.empty]
  have hsg : signText S v = signOf d.conv d.flags v := by
    unfold signText signOf
    rw [hsign, hplus]
    by_cases hv : v < 0
    · rw [if_pos hv, if_pos hv]
    · rw [if_neg hv, if_neg hv]
      by_cases hc : d.conv.isSigned = false
      · rw [if_pos hc]
        have := ha.sign hc
        simp [this.1, this.2]
      · rw [if_neg hc]
        by_cases hp : .plus ∈ d.flags
        · simp [hp]
        · by_cases hsp : .space ∈ d.flags <;> simp [hp, hsp]
  have hsl : ∀ s : Str, (signOf d.conv d.flags v ++ s).getLast? = some '0' → s.getLast? = some '0' := by
    intro s
    unfold signOf
    cases s with
    | nil =>
      intro h
      exfalso
      revert h
      split
      · simp
      · split
        · simp
        · split
          · simp
          · split <;> simp
    | cons a s =>
      intro h
      rw [List.getLast?_append] at h
      simpa using h
  by_cases ho : d.conv = .o ∧ .hash ∈ d.flags ∧ v ≠ 0
  · obtain ⟨ho, hh, hv⟩ := ho
    have hzn : z ≠ 0 := fun e => hv (hz0 e)
    have hS : S.hash = true := by rw [hhash]; simp [hh, hzn]
    have hun : d.conv.isSigned = false := by rw [ho]; rfl
    have hso : signOf d.conv d.flags v = [] := by
      unfold signOf
      rw [if_neg (by have := hu hun; omega), if_pos hun]
    have hpo : prefixOf d.conv d.flags v = [] := by unfold prefixOf; rw [if_pos ⟨hh, hv⟩, ho]
    rw [hsg, hso, hpo, if_pos hS, ho]
    simp only [List.nil_append, hashText]
    rw [layoutInt_octal hs hzero]
    by_cases hg : (effective p).getD 0 > (Conv.o.digits v.natAbs).length
    · rw [if_pos hg, if_neg]
      rintro ⟨_, _, _, h⟩
      exact h hg
    · rw [if_neg hg, if_pos ⟨trivial, hh, hv, hg⟩]
  · have hif : ¬ (d.conv = .o ∧ .hash ∈ d.flags ∧ v ≠ 0
        ∧ ¬ (effective p).getD 0 > (d.conv.digits v.natAbs).length) := by rintro ⟨a, b, c, _⟩; exact ho ⟨a, b, c⟩
    rw [if_neg hif]
    have hpre : (if S.hash then hashText d.conv else []) = prefixOf d.conv d.flags v := by
      unfold prefixOf
      rw [hhash]
      by_cases hh : .hash ∈ d.flags
      · by_cases hv : v = 0
        · rw [(ha.hash hh).2 hv]; simp [hv]
        · have hzn : z ≠ 0 := fun e => hv (hz0 e)
          have hno : d.conv ≠ .o := fun e => ho ⟨e, hh, hv⟩
          have hd : decide (.hash ∈ d.flags ∧ z ≠ 0) = true := by simp [hh, hzn]
          rw [hd, if_pos rfl, if_pos ⟨hh, hv⟩]
          cases hcv : d.conv <;> first | rfl | exact absurd hcv hno
      · simp [hh]
    rw [hpre, hsg, layoutInt_field hs hzero]
    intro h
    have := hsl _ h
    revert this
    unfold prefixOf
    split
    · cases d.conv <;> simp
    · simp

end Blackhole.Printf
