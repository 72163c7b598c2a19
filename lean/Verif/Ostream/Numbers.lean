import Verif.Ostream.Props
import Verif.Fmt.Props
import Verif.Printf.Lemmas

/-! # C81: how a stream with formatting flags prints a number

The numbers in the escape sequences of colours and the numbers that the handler for development prints, for all flags. -/

namespace Blackhole.Ostream

/-- The base as a number. -/
def Base.radix : Base → Nat
  | .dec => 10
  | .oct => 8
  | .hex => 16

/-- What is printed in front of the digits of the integer `z`, of which `n` is printed. -/
def Format.mark (f : Format) (z : Int) (n : Nat) : Str :=
  match f.base with
  | .dec => if z < 0 then ['-'] else if f.showpos then ['+'] else []
  | .oct => if f.showbase = true ∧ n ≠ 0 then ['0'] else []
  | .hex => if f.showbase = true ∧ n ≠ 0 then ['0', if f.uppercase then 'X' else 'x'] else []

/-- The digits of `n` in the base of the stream: they read back as `n`, zeros in front are not printed, and letters have the
case that the flags say. -/
structure Format.Digits (f : Format) (n : Nat) (ds : Str) : Prop where
  some : ds ≠ []
  reads : Fmt.readDigits f.base.radix 0 ds = Option.some n
  first : ds.head? = Option.some '0' → ds = ['0']
  upper : f.uppercase = true → ∀ c ∈ ds, ¬ ('a' ≤ c ∧ c ≤ 'f')
  lower : f.uppercase = false → ∀ c ∈ ds, ¬ ('A' ≤ c ∧ c ≤ 'F')

theorem first_toDigits (b : Nat) (h1 : 1 < b) (h2 : b ≤ 16) (n : Nat) (h : (Nat.toDigits b n).head? = some '0') :
    n = 0 := by
  rcases Nat.eq_zero_or_pos n with h0 | h0
  · exact h0
  · exact absurd h (Printf.head_toDigits b h1 h2 n h0)

theorem mem_toDigits (b : Nat) (h1 : 1 < b) (n : Nat) : ∀ c ∈ Nat.toDigits b n, ∃ d, d < b ∧ c = Nat.digitChar d := by
  induction n using Nat.strongRecOn with
  | _ n ih =>
    rcases Nat.lt_or_ge n b with h | h
    · rw [Nat.toDigits_of_lt_base h]
      intro c hc
      exact ⟨n, h, by simpa using hc⟩
    · rw [Nat.toDigits_of_base_le h1 h]
      intro c hc
      rcases List.mem_append.1 hc with hc | hc
      · exact ih _ (Nat.div_lt_self (by omega) h1) c hc
      · exact ⟨n % b, Nat.mod_lt _ (by omega), by simpa using hc⟩

theorem digits_small : ∀ d : Fin 10, ¬ ('a' ≤ Nat.digitChar d.val ∧ Nat.digitChar d.val ≤ 'f') ∧
    ¬ ('A' ≤ Nat.digitChar d.val ∧ Nat.digitChar d.val ≤ 'F') := by decide

theorem digits_hex : ∀ d : Fin 16, ¬ ('A' ≤ Nat.digitChar d.val ∧ Nat.digitChar d.val ≤ 'F') ∧
    ¬ ('a' ≤ (Nat.digitChar d.val).toUpper ∧ (Nat.digitChar d.val).toUpper ≤ 'f') ∧
    ((Nat.digitChar d.val).toUpper = '0' → d.val = 0) := by decide

theorem Digits_small (f : Format) (b : Nat) (hb : f.base.radix = b) (h1 : 1 < b) (h2 : b ≤ 10) (n : Nat) :
    f.Digits n (Nat.toDigits b n) := by
  have key : ∀ c ∈ Nat.toDigits b n, ¬ ('a' ≤ c ∧ c ≤ 'f') ∧ ¬ ('A' ≤ c ∧ c ≤ 'F') := by
    intro c hc
    obtain ⟨d, hd, rfl⟩ := mem_toDigits b h1 n c hc
    exact digits_small ⟨d, by omega⟩
  refine ⟨Nat.toDigits_ne_nil, ?_, ?_, fun _ c hc => (key c hc).1, fun _ c hc => (key c hc).2⟩
  · have := Fmt.readDigits_toDigits b h1 (by omega) id (fun d hd => (Fmt.digitValue_digitChar ⟨d, hd⟩).1) n
    rw [List.map_id] at this
    rw [hb]
    exact this
  · intro h
    rw [first_toDigits b h1 (by omega) n h, Nat.toDigits_of_lt_base (by omega)]
    rfl

theorem Digits_hex (f : Format) (hb : f.base = .hex) (n : Nat) :
    f.Digits n ((Nat.toDigits 16 n).map fun c => if f.uppercase then c.toUpper else c) := by
  have hr : f.base.radix = 16 := by rw [hb]; rfl
  cases hu : f.uppercase with
  | false =>
    simp only [Bool.false_eq_true, if_false, List.map_id']
    refine ⟨Nat.toDigits_ne_nil, ?_, ?_, ?_, ?_⟩
    · have := Fmt.readDigits_toDigits 16 (by omega) (by omega) id (fun d hd => (Fmt.digitValue_digitChar ⟨d, hd⟩).1) n
      rw [List.map_id] at this
      rw [hr]
      exact this
    · intro h
      rw [first_toDigits 16 (by omega) (by omega) n h]
      rfl
    · intro h; rw [hu] at h; cases h
    · intro _ c hc
      obtain ⟨d, hd, rfl⟩ := mem_toDigits 16 (by omega) n c hc
      exact (digits_hex ⟨d, hd⟩).1
  | true =>
    simp only [if_true]
    refine ⟨?_, ?_, ?_, ?_, ?_⟩
    · intro h
      exact Nat.toDigits_ne_nil (List.map_eq_nil_iff.1 h)
    · rw [hr]
      exact Fmt.readDigits_toDigits 16 (by omega) (by omega) _ (fun d hd => (Fmt.digitValue_digitChar ⟨d, hd⟩).2) n
    · intro h
      have h0 : n = 0 := by
        apply first_toDigits 16 (by omega) (by omega)
        cases hd : Nat.toDigits 16 n with
        | nil => exact absurd hd Nat.toDigits_ne_nil
        | cons c cs =>
          rw [hd] at h
          simp only [List.map_cons, List.head?_cons, Option.some.injEq] at h
          obtain ⟨d, hd', rfl⟩ := mem_toDigits 16 (by omega) n c (by rw [hd]; simp)
          have h0 : d = 0 := (digits_hex ⟨d, hd'⟩).2.2 h
          rw [h0]
          rfl
      rw [h0]
      rfl
    · intro _ c hc
      obtain ⟨x, hx, rfl⟩ := List.mem_map.1 hc
      obtain ⟨d, hd, rfl⟩ := mem_toDigits 16 (by omega) n x hx
      exact (digits_hex ⟨d, hd⟩).2.1
    · intro h; rw [hu] at h; cases h

/-- **Every number is printed in the base of the stream** with the sign or the prefix that the flags ask for, and filled up to
the width on the side that they ask for. In octal and hexadecimal a negative number is printed as what its bits are. -/
theorem C81_number (f : Format) (bits : Nat) (z : Int) :
    ∃ ds : Str, f.Digits (if f.base = .dec then z.natAbs else (z % 2 ^ bits).toNat) ds ∧
      ∃ mark fill : Str, mark = f.mark z (z % 2 ^ bits).toNat ∧
        fill = List.replicate (f.width - (mark.length + ds.length)) f.fill ∧
        Format.int bits z f =
          match f.adjust, f.base with
          | .left, _ => mark ++ ds ++ fill
          | .right, _ => fill ++ mark ++ ds
          | .internal, .oct => fill ++ mark ++ ds
          | .internal, _ => mark ++ fill ++ ds := by
  have hl : ∀ a b : Str, (a ++ b).length = a.length + b.length := fun a b => List.length_append
  cases hb : f.base with
  | dec =>
    refine ⟨_, by rw [if_pos rfl]; exact Digits_small f 10 (by rw [hb]; rfl) (by omega) (by omega) z.natAbs, _, _, rfl, rfl, ?_⟩
    unfold Format.int Format.pad
    simp only [hb, Format.mark, hl]
    cases f.adjust <;> rfl
  | hex =>
    refine ⟨_, by rw [if_neg (by decide)]; exact Digits_hex f hb _, _, _, rfl, rfl, ?_⟩
    unfold Format.int Format.nat Format.digits Format.pad
    simp only [hb, Format.mark, hl, Bool.and_eq_true, bne_iff_ne, ne_eq]
    cases f.adjust <;> rfl
  | oct =>
    refine ⟨_, by rw [if_neg (by decide)]; exact Digits_small f 8 (by rw [hb]; rfl) (by omega) (by omega) _, _, _, rfl, rfl, ?_⟩
    unfold Format.int Format.nat Format.digits Format.pad
    simp only [hb, Format.mark, hl, Bool.and_eq_true, bne_iff_ne, ne_eq, List.nil_append]
    cases f.adjust <;> simp

/-- Unsigned numbers are printed in the same way, but never with a plus sign. -/
theorem C81_unsigned (f : Format) (n : Nat) :
    ∃ ds : Str, f.Digits n ds ∧
      ∃ mark fill : Str, mark = { f with showpos := false }.mark n n ∧
        fill = List.replicate (f.width - (mark.length + ds.length)) f.fill ∧
        Format.nat n f =
          match f.adjust, f.base with
          | .left, _ => mark ++ ds ++ fill
          | .right, _ => fill ++ mark ++ ds
          | .internal, .oct => fill ++ mark ++ ds
          | .internal, _ => mark ++ fill ++ ds := by
  have hl : ∀ a b : Str, (a ++ b).length = a.length + b.length := fun a b => List.length_append
  have hz : ¬ (n : Int) < 0 := by omega
  cases hb : f.base with
  | dec =>
    refine ⟨_, Digits_small f 10 (by rw [hb]; rfl) (by omega) (by omega) n, _, _, rfl, rfl, ?_⟩
    unfold Format.nat Format.digits Format.pad
    simp only [hb, Format.mark, hl, if_neg hz, Bool.false_eq_true, if_false]
    cases f.adjust <;> rfl
  | hex =>
    refine ⟨_, Digits_hex f hb _, _, _, rfl, rfl, ?_⟩
    unfold Format.nat Format.digits Format.pad
    simp only [hb, Format.mark, hl, Bool.and_eq_true, bne_iff_ne, ne_eq]
    cases f.adjust <;> rfl
  | oct =>
    refine ⟨_, Digits_small f 8 (by rw [hb]; rfl) (by omega) (by omega) _, _, _, rfl, rfl, ?_⟩
    unfold Format.nat Format.digits Format.pad
    simp only [hb, Format.mark, hl, Bool.and_eq_true, bne_iff_ne, ne_eq, List.nil_append]
    cases f.adjust <;> simp

example : Format.int 32 31 { Format.default with base := .oct, showbase := true, width := 5, fill := '*', adjust := .internal }
    = ch! "**037" := by decide
example : Format.int 32 (-1) ⟨.hex, true, false, true, false, .internal, 12, '*'⟩ = ch! "0X**FFFFFFFF" := by decide
example : Format.int 32 0 { Format.default with base := .oct, showbase := true } = ch! "0" := by decide
example : Format.int 32 7 { Format.default with showpos := true, width := 4, adjust := .internal } = ch! "+  7" := by decide
example : Format.nat 7 { Format.default with showpos := true, width := 4, adjust := .left } = ch! "7   " := by decide

end Blackhole.Ostream
