import Verif.FmtStream.Spec
import Verif.Fmt.Lemmas
import Verif.Fmt.Props

/-! # Integers written with `<<`, `FormatInt` and `format_decimal`: C92 -/

namespace Blackhole.FmtStream
open Fmt (Buf Err put putBefore putTwo digitsAt countDigits powers32 powers64 formatDecimal finish writeInt)

theorem bits_cases (t : IntType) : t.bits = 32 ∨ t.bits = 64 := by cases t <;> simp [IntType.bits]

theorem IntType.Holds.range {t : IntType} {z : Int} (h : t.Holds z) : -2 ^ t.bits < z ∧ z < 2 ^ t.bits := by
  cases t <;> simp only [IntType.Holds, IntType.bits] at * <;> omega

theorem IntType.Holds.range64 {t : IntType} {z : Int} (h : t.Holds z) : -2 ^ 64 < z ∧ z < 2 ^ 64 := by
  cases t <;> simp only [IntType.Holds] at * <;> omega

theorem IntType.Holds.nonneg {t : IntType} {z : Int} (h : t.Holds z) (hs : t.signed = false) : 0 ≤ z := by
  cases t <;> simp_all [IntType.Holds, IntType.signed]

theorem natAbs_lt {bits : Nat} {z : Int} (h1 : -2 ^ bits < z) (h2 : z < 2 ^ bits) : z.natAbs < 2 ^ bits := by
  have e : (2 : Int) ^ bits = ((2 ^ bits : Nat) : Int) := by simp
  rw [e] at h1 h2
  omega

theorem lt_ten_pow {bits n : Nat} (h : n < 2 ^ bits) : n < 10 ^ (bits + 1) := by
  refine Nat.lt_of_lt_of_le h (Nat.le_trans (Nat.pow_le_pow_left (by omega : 2 ≤ 10) bits) ?_)
  exact Nat.pow_le_pow_right (by omega) (by omega)

theorem count_eq {bits n : Nat} (hb : bits = 32 ∨ bits = 64) (h : n < 2 ^ bits) :
    countDigits (if bits ≤ 32 then powers32 else powers64) n = .ok (Nat.toDigits 10 n).length := by
  rcases hb with rfl | rfl
  · exact Fmt.countDigits32 n h
  · exact Fmt.countDigits64 n h

theorem writeUnsigned_eq {bits n : Nat} (hb : bits = 32 ∨ bits = 64) (h : n < 2 ^ bits) (k : Nat) :
    writeUnsignedDecimal bits n k = .ok (List.replicate k none ++ (Nat.toDigits 10 n).map some) := by
  unfold writeUnsignedDecimal
  rw [count_eq hb h]
  have := Fmt.formatDecimal_spec (bits + 1) n (List.replicate k none)
    (List.replicate (Nat.toDigits 10 n).length none) [] (lt_ten_pow h) (by omega) (by simp)
  simp only [List.append_nil, List.length_replicate, List.replicate_append_replicate] at this
  exact this

theorem writeDecimal_eq {bits : Nat} (hb : bits = 32 ∨ bits = 64) {z : Int} (h1 : -2 ^ bits < z) (h2 : z < 2 ^ bits) :
    writeDecimal bits z = .ok (numeral 10 z) := by
  have habs := Fmt.abs_eq bits z h1 h2
  have hlt := natAbs_lt h1 h2
  unfold writeDecimal numeral
  by_cases hz : z < 0
  · simp only [if_pos hz] at habs ⊢
    rw [habs, writeUnsigned_eq hb hlt]
    simp only [bind, Except.bind]
    have := Fmt.put_at [] ((Nat.toDigits 10 z.natAbs).map some) none '-'
    simp only [List.nil_append, List.length_nil] at this
    simp only [List.replicate_one, List.singleton_append, this]
    exact Fmt.finish_some ('-' :: Nat.toDigits 10 z.natAbs)
  · simp only [if_neg hz] at habs ⊢
    rw [habs, writeUnsigned_eq hb hlt]
    simp only [bind, Except.bind]
    simp only [List.replicate_zero, List.nil_append, Fmt.finish_some]

/-- An integer of any type that is written with `<<` appears as its decimal numeral. -/
theorem C92_stream (t : IntType) (z : Int) (h : t.Holds z) : stream t z = .ok (numeral 10 z) := by
  unfold stream
  split
  · exact writeDecimal_eq (bits_cases t) h.range.1 h.range.2
  · rename_i hs
    rw [Fmt.writeInt_eq t.bits false (bits_cases t) {} z h.range.1 h.range.2]
    have hz := h.nonneg (by simpa using hs)
    simp only [Fmt.intDigits, Fmt.layout, Fmt.signText, numeral]
    rw [if_neg (by omega)]
    simp [hz]

/-- With a manipulator it appears in that base, the sign first and no prefix, and, if it is padded, on the right of its
field. -/
theorem C92_manipulators (s : Shown) (h : s.type.Holds s.value) :
    s.stream = .ok (match s.pad with
      | none => inBase s.base s.value
      | some (width, fill) => rightIn width fill (inBase s.base s.value)) := by
  unfold Shown.stream
  simp only
  rw [Fmt.writeInt_eq s.type.bits false (bits_cases s.type) _ s.value h.range.1 h.range.2]
  have hup : ∀ ds : Str, (numeral 16 s.value).map Char.toUpper
      = (if s.value < 0 then ['-'] else []) ++ (Nat.toDigits 16 s.value.natAbs).map Char.toUpper := by
    intro _
    unfold numeral
    rw [List.map_append]
    split <;> rfl
  cases hp : s.pad with
  | none =>
    cases hb : s.base with
    | none => simp [Fmt.intDigits, Fmt.layout, Fmt.signText, inBase, numeral]
    | some b =>
      cases b <;>
        simp only [Option.map_some, Base.letter, Fmt.intDigits, Fmt.layout, Fmt.signText, inBase, hup []] <;>
        simp [numeral]
  | some p =>
    obtain ⟨w, f⟩ := p
    have hl : ∀ (a ds : Str), List.replicate (w - (a.length + ds.length)) f ++ a ++ ds = rightIn w f (a ++ ds) := by
      intro a ds
      simp [rightIn]
    cases hb : s.base with
    | none => simp [Fmt.intDigits, Fmt.layout, Fmt.signText, inBase, numeral, rightIn]
    | some b =>
      cases b <;>
        simp only [Option.map_some, Base.letter, Fmt.intDigits, Fmt.layout, Fmt.signText, inBase, hup []] <;>
        simp [numeral, rightIn]

/-- A padded text appears on the left of its field. -/
theorem C92_padded_text (s : Str) (width : Nat) (fill : Char) : streamPadded s width fill = leftIn width fill s := by
  unfold streamPadded Fmt.pad leftIn
  simp only
  split
  · rfl
  · rw [show width - s.length = 0 by omega]; simp

/-! ## FormatInt -/

theorem reverse_spec (fuel : Nat) : ∀ (v : Nat) (a h b : Buf), v < 10 ^ fuel → fuel ≠ 0 →
    h.length = (Nat.toDigits 10 v).length →
    reverseDecimal fuel (a ++ h ++ b) (a.length + h.length) v
      = .ok (a ++ (Nat.toDigits 10 v).map some ++ b, a.length) := by
  induction fuel with
  | zero => intro v a h b _ h; exact absurd rfl h
  | succ fuel ih =>
    intro v a h b hv _ hl
    unfold reverseDecimal
    by_cases h100 : v ≥ 100
    · rw [if_pos h100]
      rw [Fmt.toDigits_two h100] at hl ⊢
      simp only [List.length_append, List.length_cons, List.length_nil] at hl
      obtain ⟨h', x, y, rfl⟩ : ∃ h' x y, h = h' ++ [x, y] := by
        rcases List.eq_nil_or_concat h with rfl | ⟨h1, y, rfl⟩
        · simp at hl
        · rw [List.concat_eq_append] at hl ⊢
          rcases List.eq_nil_or_concat h1 with rfl | ⟨h2, x, rfl⟩
          · have : 0 < (Nat.toDigits 10 (v / 100)).length := Nat.length_toDigits_pos
            simp at hl
          · exact ⟨h2, x, y, by simp⟩
      simp only [List.length_append, List.length_cons, List.length_nil] at hl
      have p := Fmt.putTwo_at (a ++ h') b x y (v % 100) (Nat.mod_lt _ (by omega))
      have e1 : a ++ (h' ++ [x, y]) ++ b = a ++ h' ++ x :: y :: b := by simp
      have e2 : a.length + (h' ++ [x, y]).length = (a ++ h').length + 2 := by simp; omega
      rw [e1, e2, p]
      simp only
      have := ih (v / 100) a h'
        (some (Nat.digitChar (v % 100 / 10)) :: some (Nat.digitChar (v % 100 % 10)) :: b)
        (by rw [Nat.pow_succ] at hv; omega) (by rintro rfl; omega) (by omega)
      rw [List.length_append, this]
      simp
    · rw [if_neg h100]
      by_cases h10 : v < 10
      · rw [if_pos h10]
        rw [Nat.toDigits_of_lt_base h10] at hl ⊢
        obtain ⟨x, rfl⟩ : ∃ x, h = [x] := by
          match h, hl with
          | [x], _ => exact ⟨x, rfl⟩
        have p := Fmt.putBefore_at a b x (Char.ofNat (48 + v))
        have e1 : a ++ [x] ++ b = a ++ x :: b := by simp
        rw [e1, List.length_singleton, p, Fmt.digitChar_ofNat ⟨v, h10⟩]
        simp
      · rw [if_neg h10]
        have ht : Nat.toDigits 10 v = [Nat.digitChar (v / 10), Nat.digitChar (v % 10)] := by
          rw [Nat.toDigits_of_base_le (by omega) (by omega), Nat.toDigits_of_lt_base (by omega)]
          rfl
        rw [ht] at hl ⊢
        obtain ⟨x, y, rfl⟩ : ∃ x y, h = [x, y] := by
          match h, hl with
          | [x, y], _ => exact ⟨x, y, rfl⟩
        have p := Fmt.putTwo_at a b x y v (by omega)
        have e1 : a ++ [x, y] ++ b = a ++ x :: y :: b := by simp
        rw [e1]
        show putTwo _ (a.length + 2) _ = _
        rw [p]
        simp

theorem digits_le {n : Nat} (k : Nat) (hk : k ≠ 0) (h : n < 10 ^ k) : (Nat.toDigits 10 n).length ≤ k :=
  (Nat.length_toDigits_le_iff (by omega) (by omega)).2 h

/-- Where the text is in a `FormatInt`: at the end of the array, except for its last element. -/
def Placed (o : FormatInt) (s : Str) : Prop :=
  o.strOf = o.self ∧ o.strAt + s.length + 1 = bufferSize
    ∧ ∃ front, front.length = o.strAt ∧ o.buffer = front ++ s.map some ++ [none]

theorem make_spec (self : Nat) (t : IntType) (z : Int) (h : t.Holds z) :
    ∃ o, FormatInt.make self t z = .ok o ∧ o.self = self ∧ Placed o (numeral 10 z) := by
  have hlt : z.natAbs < 2 ^ 64 := natAbs_lt h.range64.1 h.range64.2
  have hpow : z.natAbs < 10 ^ 65 := lt_ten_pow hlt
  have habs := Fmt.abs_eq 64 z h.range64.1 h.range64.2
  have hr : ∀ k, (Nat.toDigits 10 z.natAbs).length + k = 21 →
      reverseDecimal 65 (List.replicate bufferSize none) (bufferSize - 1) z.natAbs
        = .ok (List.replicate k none ++ (Nat.toDigits 10 z.natAbs).map some ++ [none], k) := by
    intro k hk
    have := reverse_spec 65 z.natAbs (List.replicate k none)
      (List.replicate (Nat.toDigits 10 z.natAbs).length none) [none] hpow (by omega) (by simp)
    simp only [List.length_replicate, List.replicate_append_replicate] at this
    rw [show k + (Nat.toDigits 10 z.natAbs).length = 21 by omega] at this
    exact this
  have hdig : (Nat.toDigits 10 z.natAbs).length ≤ 20 := digits_le 20 (by omega) (by omega)
  obtain ⟨k, hk⟩ : ∃ k, (Nat.toDigits 10 z.natAbs).length + k = 21 := ⟨21 - (Nat.toDigits 10 z.natAbs).length, by omega⟩
  unfold FormatInt.make
  by_cases hs : t.signed = true
  · simp only [if_pos hs]
    unfold formatSigned
    simp only [habs, hr k hk, bind, Except.bind]
    by_cases hz : z < 0
    · rw [if_pos hz]
      have h19 : (Nat.toDigits 10 z.natAbs).length ≤ 19 := by
        apply digits_le 19 (by omega)
        cases t <;> simp only [IntType.Holds, IntType.signed] at h hs <;> omega
      obtain ⟨j, rfl⟩ : ∃ j, k = j + 1 := ⟨k - 1, by omega⟩
      have p := Fmt.putBefore_at (List.replicate j none) ((Nat.toDigits 10 z.natAbs).map some ++ [none]) none '-'
      have e : List.replicate (j + 1) (none : Option Char) ++ (Nat.toDigits 10 z.natAbs).map some ++ [none]
          = List.replicate j none ++ none :: ((Nat.toDigits 10 z.natAbs).map some ++ [none]) := by
        rw [List.replicate_succ']; simp
      rw [List.length_replicate] at p
      rw [e, p]
      refine ⟨_, rfl, rfl, rfl, ?_, List.replicate j none, by simp, ?_⟩
      · simp only [numeral, if_pos hz, List.singleton_append, List.length_cons, bufferSize]; omega
      · simp [numeral, hz]
    · rw [if_neg hz]
      refine ⟨_, rfl, rfl, rfl, ?_, List.replicate k none, by simp, ?_⟩
      · simp only [numeral, if_neg hz, List.nil_append, bufferSize]; omega
      · simp [numeral, hz]
  · have hz : ¬ z < 0 := by have := h.nonneg (by simpa using hs); omega
    rw [if_neg hz] at habs
    simp only [if_neg hs, habs, hr k hk, bind, Except.bind]
    refine ⟨_, rfl, rfl, rfl, ?_, List.replicate k none, by simp, ?_⟩
    · simp only [numeral, if_neg hz, List.nil_append, bufferSize]; omega
    · simp [numeral, hz]

theorem digitChar_ne_nul : ∀ n : Nat, n < 10 → Nat.digitChar n ≠ '\x00' := by decide

theorem numeral_no_nul (z : Int) : '\x00' ∉ numeral 10 z := by
  have hd : ∀ n : Nat, '\x00' ∉ Nat.toDigits 10 n := by
    intro n
    induction n using Nat.strongRecOn with
    | ind n ih =>
      by_cases hn : n < 10
      · rw [Nat.toDigits_of_lt_base hn]
        simp only [List.mem_singleton]
        exact fun h => digitChar_ne_nul n hn h.symm
      · rw [Nat.toDigits_of_base_le (by omega) (by omega)]
        simp only [List.mem_append, List.mem_singleton, not_or]
        exact ⟨ih (n / 10) (by omega), fun h => digitChar_ne_nul _ (Nat.mod_lt _ (by omega)) h.symm⟩
  unfold numeral
  simp only [List.mem_append, not_or]
  refine ⟨?_, hd _⟩
  split <;> decide

theorem cString_spec (s : Str) (h : '\x00' ∉ s) (rest : Buf) :
    cString (s.map some ++ some '\x00' :: rest) = .ok s := by
  induction s with
  | nil => simp [cString]
  | cons c s ih =>
    simp only [List.mem_cons, not_or] at h
    simp only [List.map_cons, List.cons_append, cString]
    rw [if_neg (fun e => h.1 e.symm), ih h.2]
    rfl

/-- A `FormatInt` can be made of every integer of every type without writing outside of its array, and gives the
decimal numeral of it: its size, as a string and as a C string. -/
theorem C92_format_int (self : Nat) (t : IntType) (z : Int) (h : t.Holds z) :
    ∃ o, FormatInt.make self t z = .ok o
      ∧ o.size = .ok (numeral 10 z).length ∧ o.str = .ok (numeral 10 z) ∧ o.cStr = .ok (numeral 10 z) := by
  obtain ⟨o, ho, _, hof, hat, front, hf, hb⟩ := make_spec self t z h
  refine ⟨o, ho, ?_, ?_, ?_⟩
  · unfold FormatInt.size
    rw [if_pos hof]
    congr 1
    simp only [bufferSize] at *; omega
  · unfold FormatInt.str FormatInt.size
    rw [if_pos hof]
    have hn : bufferSize - 1 - o.strAt = (numeral 10 z).length := by simp only [bufferSize] at *; omega
    simp only [bind, Except.bind, hn]
    rw [if_pos (by rw [hb]; simp; omega), hb, ← hf]
    simp only [List.append_assoc, List.drop_left]
    rw [List.take_left' (by simp)]
    exact Fmt.finish_some _
  · unfold FormatInt.cStr
    have p := Fmt.put_at (front ++ (numeral 10 z).map some) [] none '\x00'
    have e : (front ++ (numeral 10 z).map some).length = bufferSize - 1 := by
      simp only [List.length_append, List.length_map, hf, bufferSize] at *; omega
    rw [e] at p
    rw [hb, p]
    simp only [bind, Except.bind, if_pos hof]
    rw [← hf]
    simp only [List.append_assoc, List.drop_left]
    exact cString_spec _ (numeral_no_nul z) []

/-- A copy of a `FormatInt` does not work: its pointer still points into the array of the original, so that neither its
size nor its text is defined. -/
theorem C92_fails_copy (self other : Nat) (hne : self ≠ other) (t : IntType) (z : Int) (h : t.Holds z) :
    ∃ o, FormatInt.make self t z = .ok o
      ∧ (o.copy other).size = .error (.ub .outOfBounds) ∧ (o.copy other).str = .error (.ub .outOfBounds) := by
  obtain ⟨o, ho, hself, hof, _⟩ := make_spec self t z h
  refine ⟨o, ho, ?_, ?_⟩
  · unfold FormatInt.size FormatInt.copy
    rw [if_neg (by simpa [hof, hself] using hne)]
  · unfold FormatInt.str FormatInt.size FormatInt.copy
    simp only
    rw [if_neg (by simpa [hof, hself] using hne)]
    rfl

/-! ## format_decimal -/

theorem put_in (a h b : Buf) (c : Char) (hh : h.length = 1) :
    put (a ++ h ++ b) a.length c = .ok (a ++ [some c] ++ b) := by
  match h, hh with
  | [x], _ =>
    have := Fmt.put_at a b x c
    simpa using this

theorem digits_at (a h b : Buf) (bits n : Nat) (hb : bits = 32 ∨ bits = 64) (hn : n < 2 ^ bits)
    (hh : h.length = (Nat.toDigits 10 n).length) :
    (do
      if n < 10 then
        let b ← put (a ++ h ++ b) a.length (Char.ofNat (48 + n))
        .ok (b, a.length + 1)
      else if n < 100 then
        let hi ← digitsAt (n * 2)
        let b ← put (a ++ h ++ b) a.length hi
        let lo ← digitsAt (n * 2 + 1)
        let b ← put b (a.length + 1) lo
        .ok (b, a.length + 2)
      else
        let numDigits ← countDigits (if bits ≤ 32 then powers32 else powers64) n
        let b ← formatDecimal (bits + 1) (a ++ h ++ b) (a.length + numDigits) n
        .ok (b, a.length + numDigits) : Except Err (Buf × Nat))
      = .ok (a ++ (Nat.toDigits 10 n).map some ++ b, a.length + (Nat.toDigits 10 n).length) := by
  by_cases h10 : n < 10
  · rw [if_pos h10]
    rw [Nat.toDigits_of_lt_base h10] at hh ⊢
    rw [put_in a h b _ (by simpa using hh), Fmt.digitChar_ofNat ⟨n, h10⟩]
    simp [bind, Except.bind]
  · rw [if_neg h10]
    by_cases h100 : n < 100
    · rw [if_pos h100]
      have ht : Nat.toDigits 10 n = [Nat.digitChar (n / 10), Nat.digitChar (n % 10)] := by
        rw [Nat.toDigits_of_base_le (by omega) (by omega), Nat.toDigits_of_lt_base (by omega)]
        rfl
      rw [ht] at hh ⊢
      obtain ⟨x, y, rfl⟩ : ∃ x y, h = [x, y] := by
        match h, hh with
        | [x, y], _ => exact ⟨x, y, rfl⟩
      obtain ⟨h1, h2⟩ := Fmt.digits_table ⟨n, h100⟩
      simp only at h1 h2
      have p1 := Fmt.put_at a ([y] ++ b) x (Nat.digitChar (n / 10))
      have p2 := Fmt.put_at (a ++ [some (Nat.digitChar (n / 10))]) b y (Nat.digitChar (n % 10))
      simp only [List.append_assoc, List.singleton_append, List.length_append, List.length_singleton] at p1 p2
      rw [h1, h2]
      simp only [bind, Except.bind, List.append_assoc, List.cons_append, List.nil_append]
      rw [p1]
      simp only
      rw [p2]
      simp
    · rw [if_neg h100, count_eq hb hn]
      have := Fmt.formatDecimal_spec (bits + 1) n a h b (lt_ten_pow hn) (by omega) hh
      rw [hh] at this
      simp only [bind, Except.bind, this]

/-- `format_decimal` writes the decimal numeral of an integer into the caller's memory where it is told to, moves the
pointer behind it, and changes nothing else; it needs no more room than the numeral takes. -/
theorem C92_format_decimal (t : IntType) (z : Int) (h : t.Holds z) (a room b : Buf)
    (hroom : room.length = (numeral 10 z).length) :
    formatDecimalAt t.bits (a ++ room ++ b) a.length z
      = .ok (a ++ (numeral 10 z).map some ++ b, a.length + (numeral 10 z).length) := by
  have habs := Fmt.abs_eq t.bits z h.range.1 h.range.2
  have hlt := natAbs_lt h.range.1 h.range.2
  unfold formatDecimalAt
  by_cases hz : z < 0
  · rw [if_pos hz] at habs
    simp only [numeral, if_pos hz, List.singleton_append, List.length_cons] at hroom
    obtain ⟨x, r, rfl⟩ : ∃ x r, room = x :: r := by
      cases room with
      | nil => simp at hroom
      | cons x r => exact ⟨x, r, rfl⟩
    have p := Fmt.put_at a (r ++ b) x '-'
    have e : a ++ x :: r ++ b = a ++ x :: (r ++ b) := by simp
    have d := digits_at (a ++ [some '-']) r b t.bits z.natAbs (bits_cases t) hlt (by simpa using hroom)
    simp only [List.append_assoc, List.cons_append, List.nil_append, List.length_append, List.length_singleton] at d
    simp only [if_pos hz, e, p, bind, Except.bind, pure, Except.pure, habs, numeral]
    simp only [bind, Except.bind] at d
    rw [d]
    simp
    omega
  · rw [if_neg hz] at habs
    have d := digits_at a room b t.bits z.natAbs (bits_cases t) hlt (by simpa [numeral, hz] using hroom)
    simp only [if_neg hz, bind, Except.bind, pure, Except.pure, habs, numeral, List.nil_append]
    simp only [bind, Except.bind] at d
    exact d

/-! ## Concrete cases -/

example : (IntType.long).Holds (-2 ^ 63) ∧ numeral 10 (-2 ^ 63) = ch! "-9223372036854775808" := by
  refine ⟨by simp only [IntType.Holds]; omega, by decide⟩

example : rightIn 8 '0' (inBase (some .hex) 0xcafe) = ch! "0000cafe" ∧ rightIn 4 '0' (inBase none (-5)) = ch! "00-5"
    ∧ leftIn 8 ' ' (ch! "abc") = ch! "abc     " := by decide

example : (Shown.stream { type := .int, value := 0xcafe, base := some .hexu, pad := some (8, '*') })
    = .ok (ch! "****CAFE") := by rfl

end Blackhole.FmtStream
