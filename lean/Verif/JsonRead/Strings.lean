import Verif.JsonRead.Gaps

/-!
# Strings: lemmas
-/

namespace Blackhole.JsonRead

open Config (Json)

theorem hexVal_digit {c : Char} {i : Nat} (h : HexDigit c i) : hexVal c = some i ∧ i < 16 := by
  have hi : i < 16 := by
    rcases h with h | h <;> exact (List.getElem?_eq_some_iff.1 h).1
  refine ⟨?_, hi⟩
  have hf : ∀ i : Fin 16, (∀ c ∈ (ch! "0123456789abcdef")[i.val]?, hexVal c = some i.val) ∧
      (∀ c ∈ (ch! "0123456789ABCDEF")[i.val]?, hexVal c = some i.val) := by decide
  rcases h with h | h
  · exact (hf ⟨i, hi⟩).1 c h
  · exact (hf ⟨i, hi⟩).2 c h

theorem digit_hexVal {c : Char} {i : Nat} (h : hexVal c = some i) : HexDigit c i := by
  have key : ∀ n : Fin 103, ∀ i, hexVal (Char.ofNat n.val) = some i →
      (ch! "0123456789abcdef")[i]? = some (Char.ofNat n.val) ∨ (ch! "0123456789ABCDEF")[i]? = some (Char.ofNat n.val) := by
    have : ∀ n : Fin 103, ∀ i ∈ hexVal (Char.ofNat n.val), (ch! "0123456789abcdef")[i]? = some (Char.ofNat n.val) ∨
        (ch! "0123456789ABCDEF")[i]? = some (Char.ofNat n.val) := by decide
    exact fun n i hi => this n i hi
  have hc : c.toNat < 103 := by
    unfold hexVal at h
    simp only [Char.le_def, UInt32.le_iff_toNat_le] at h
    have e1 : '9'.val.toNat = 57 := rfl
    have e2 : 'F'.val.toNat = 70 := rfl
    have e3 : 'f'.val.toNat = 102 := rfl
    have e4 : c.val.toNat = c.toNat := rfl
    split at h
    · omega
    · split at h
      · omega
      · split at h
        · omega
        · cases h
  have := key ⟨c.toNat, hc⟩ i (by simpa only [Char.ofNat_toNat] using h)
  unfold HexDigit
  simpa only [Char.ofNat_toNat] using this

theorem hex4_hex {h : Str} {u : Nat} (hu : Hex h u) (esc rest : Str) : hex4 esc 4 0 (h ++ rest) = .ok (u, rest) := by
  cases hu with
  | @digits a b c d i j k l h1 h2 h3 h4 =>
    simp only [List.cons_append, List.nil_append, hex4, (hexVal_digit h1).1, (hexVal_digit h2).1, (hexVal_digit h3).1,
      (hexVal_digit h4).1]
    congr 2
    omega

theorem hex_hex4 {esc s rest : Str} {u : Nat} (h : hex4 esc 4 0 s = .ok (u, rest)) : ∃ t, Hex t u ∧ s = t ++ rest := by
  rcases s with _ | ⟨a, s⟩
  · cases h
  rw [hex4] at h
  split at h
  · cases h
  rename_i i hi
  rcases s with _ | ⟨b, s⟩
  · cases h
  rw [hex4] at h
  split at h
  · cases h
  rename_i j hj
  rcases s with _ | ⟨c, s⟩
  · cases h
  rw [hex4] at h
  split at h
  · cases h
  rename_i k hk
  rcases s with _ | ⟨d, s⟩
  · cases h
  rw [hex4] at h
  split at h
  · cases h
  rename_i l hl
  rw [hex4] at h
  cases h
  refine ⟨[a, b, c, d], ?_, rfl⟩
  have := Hex.digits (digit_hexVal hi) (digit_hexVal hj) (digit_hexVal hk) (digit_hexVal hl)
  have e : 16 * (16 * (16 * (16 * 0 + i) + j) + k) + l = 4096 * i + 256 * j + 16 * k + l := by omega
  rw [e]
  exact this

theorem hex_bound {h : Str} {u : Nat} (hu : Hex h u) : u < 0x10000 := by
  cases hu with
  | digits h1 h2 h3 h4 =>
    have := (hexVal_digit h1).2
    have := (hexVal_digit h2).2
    have := (hexVal_digit h3).2
    have := (hexVal_digit h4).2
    omega

theorem hex_length {h : Str} {u : Nat} (hu : Hex h u) : h.length = 4 := by
  cases hu with
  | digits => rfl

theorem toNat_ofNat {n : Nat} (h : n < 0xD800 ∨ 0xDFFF < n ∧ n < 0x110000) : (Char.ofNat n).val.toNat = n := by
  have hv : n.isValidChar := by
    unfold Nat.isValidChar
    omega
  rw [Char.ofNat, dif_pos hv]
  rfl

theorem byte_eq {a b : Nat} (h : a = b) (hb : b < 256) : Char.ofNat (UInt8.ofNat a).toNat = Char.ofNat b := by
  subst h
  rw [UInt8.toNat_ofNat', Nat.mod_eq_of_lt hb]

/-- The bytes that the parser writes are those of UTF-8. -/
theorem utf8_bytes {n : Nat} (h : n < 0xD800 ∨ 0xDFFF < n ∧ n < 0x110000) : utf8 n = bytes (Char.ofNat n) := by
  unfold utf8 bytes String.utf8EncodeChar
  simp only [toNat_ofNat h]
  by_cases h1 : n < 0x80
  · rw [if_pos h1, if_pos (show n ≤ 0x7f by omega), List.map_cons, List.map_nil, byte_eq rfl (by omega)]
  · rw [if_neg h1, if_neg (show ¬ n ≤ 0x7f by omega)]
    by_cases h2 : n < 0x800
    · rw [if_pos h2, if_pos (show n ≤ 0x7ff by omega), List.map_cons, List.map_cons, List.map_nil,
        byte_eq (b := 0xC0 + n / 64) (by omega) (by omega), byte_eq (b := 0x80 + n % 64) (by omega) (by omega)]
    · rw [if_neg h2, if_neg (show ¬ n ≤ 0x7ff by omega)]
      by_cases h3 : n < 0x10000
      · rw [if_pos h3, if_pos (show n ≤ 0xffff by omega), List.map_cons, List.map_cons, List.map_cons, List.map_nil,
          byte_eq (b := 0xE0 + n / 4096) (by omega) (by omega), byte_eq (b := 0x80 + n / 64 % 64) (by omega) (by omega),
          byte_eq (b := 0x80 + n % 64) (by omega) (by omega)]
      · rw [if_neg h3, if_neg (show ¬ n ≤ 0xffff by omega), List.map_cons, List.map_cons, List.map_cons, List.map_cons, List.map_nil,
          byte_eq (b := 0xF0 + n / 262144) (by omega) (by omega), byte_eq (b := 0x80 + n / 4096 % 64) (by omega) (by omega),
          byte_eq (b := 0x80 + n / 64 % 64) (by omega) (by omega), byte_eq (b := 0x80 + n % 64) (by omega) (by omega)]

theorem pair_code (u l : Nat) :
    (u - 0xD800) * 1024 + (l - 0xDC00) + 0x10000 = 0x10000 + 0x400 * (u - 0xD800) + (l - 0xDC00) := by
  have : ∀ a b : Nat, a * 1024 + b + 0x10000 = 0x10000 + 0x400 * a + b := by
    intro a b
    omega
  exact this _ _

theorem utf8_half {u : Nat} (h : 0xDC00 ≤ u ∧ u ≤ 0xDFFF) :
    utf8 u = [Char.ofNat 0xED, Char.ofNat (0xB0 + (u - 0xDC00) / 64), Char.ofNat (0x80 + u % 64)] := by
  unfold utf8
  rw [if_neg (by omega), if_neg (by omega), if_pos (by omega)]
  have e1 : 0xE0 + u / 4096 = 0xED := by omega
  have e2 : 0x80 + u / 64 % 64 = 0xB0 + (u - 0xDC00) / 64 := by omega
  rw [e1, e2]

theorem simple_iff (e c : Char) : simple e = some c ↔
    (e, c) ∈ [('"', '"'), ('\\', '\\'), ('/', '/'), ('b', '\x08'), ('f', '\x0c'), ('n', '\n'), ('r', '\r'), ('t', '\t')] := by
  simp only [List.mem_cons, List.not_mem_nil, or_false, Prod.mk.injEq]
  constructor
  · intro h
    unfold simple at h
    repeat'
      split at h
      · rename_i he
        cases h
        simp [he]
    cases h
  · rintro (⟨rfl, rfl⟩ | ⟨rfl, rfl⟩ | ⟨rfl, rfl⟩ | ⟨rfl, rfl⟩ | ⟨rfl, rfl⟩ | ⟨rfl, rfl⟩ | ⟨rfl, rfl⟩ | ⟨rfl, rfl⟩) <;> rfl

/-- One escape, as the specification has it. -/
def Escape (b t : Str) : Prop := ∀ s' t', Chars s' t' → Chars (b ++ s') ('\\' :: (t ++ t'))

theorem escape_ok {esc s b r : Str} (h : escape esc s = .ok (b, r)) : ∃ t, t ≠ [] ∧ Escape b t ∧ s = t ++ r := by
  rcases s with _ | ⟨c, s⟩
  · cases h
  rw [escape] at h
  split at h
  · rename_i e he
    cases h
    exact ⟨[c], (by simp), (fun s' t' hs => .short ((simple_iff _ _).1 he) hs), rfl⟩
  · split at h
    · rename_i hc
      subst hc
      split at h
      · cases h
      · rename_i u r1 hu
        obtain ⟨t, ht, rfl⟩ := hex_hex4 hu
        have hb := hex_bound ht
        split at h
        · rename_i hhi
          split at h
          · cases h
          · rename_i r2 hr2
            split at h
            · cases h
            · rename_i l r3 hl
              obtain ⟨t2, ht2, rfl⟩ := hex_hex4 hl
              split at h
              · cases h
              · rename_i hlo
                simp only [Except.ok.injEq, Prod.mk.injEq] at h
                obtain ⟨rfl, rfl⟩ := h
                refine ⟨'u' :: (t ++ '\\' :: 'u' :: t2), (by simp), ?_, ?_⟩
                · intro s' t' hs
                  rw [utf8_bytes (by omega)]
                  have := Chars.pair ht ht2 hhi (by omega) hs
                  rw [pair_code]
                  simpa only [List.cons_append, List.append_assoc] using this
                · cases hq : consume '\\' r1 with
                  | none => rw [hq] at hr2; cases hr2
                  | some q =>
                    rw [hq] at hr2
                    rw [consume_some hq, consume_some hr2]
                    simp only [List.cons_append, List.append_assoc]
        · rename_i hhi
          cases h
          refine ⟨'u' :: t, (by simp), ?_, rfl⟩
          intro s' t' hs
          by_cases hlow : 0xDC00 ≤ u ∧ u ≤ 0xDFFF
          · rw [utf8_half hlow]
            exact .half ht hlow hs
          · rw [utf8_bytes (by omega)]
            exact .unit ht (by omega) hs
    · cases h

theorem chars_ok : ∀ (n : Nat) (x s rest : Str), chars n x = .ok (s, rest) → ∃ t, Chars s t ∧ x = t ++ '"' :: rest := by
  intro n
  induction n with
  | zero => intro x s rest h; cases h
  | succ n ih =>
    intro x s rest h
    rcases x with _ | ⟨c, r⟩
    · cases h
    rw [chars] at h
    split at h
    · rename_i hc
      subst hc
      split at h
      · cases h
      · rename_i b r1 he
        obtain ⟨t, -, hesc, rfl⟩ := escape_ok he
        split at h
        · cases h
        · rename_i s1 r2 h2
          cases h
          obtain ⟨t2, ht2, rfl⟩ := ih _ _ _ h2
          exact ⟨'\\' :: (t ++ t2), hesc _ _ ht2, by simp only [List.cons_append, List.append_assoc]⟩
    · rename_i hb
      split at h
      · rename_i hq
        cases h
        exact ⟨[], .nil, by rw [hq]; rfl⟩
      · rename_i hq
        split at h
        · cases h
        · split at h
          · cases h
          · rename_i hlow
            split at h
            · cases h
            · rename_i s1 r1 h1
              cases h
              obtain ⟨t, ht, rfl⟩ := ih _ _ _ h1
              exact ⟨c :: t, .plain hq hb (by omega) ht, rfl⟩

theorem string_ok {x s rest : Str} (h : string x = .ok (s, rest)) : ∃ t, Chars s t ∧ x = t ++ '"' :: rest :=
  chars_ok _ _ _ _ h

theorem chars_chars {s t : Str} (h : Chars s t) : ∀ (n : Nat) (rest : Str), t.length < n →
    chars n (t ++ '"' :: rest) = .ok (s, rest) := by
  induction h with
  | nil =>
    intro n rest hn
    cases n with
    | zero => omega
    | succ n => rfl
  | @plain c s t h1 h2 h3 _ ih =>
    intro n rest hn
    cases n with
    | zero => omega
    | succ n =>
      simp only [List.length_cons] at hn
      have h0 : c ≠ '\x00' := by
        rintro rfl
        exact absurd h3 (by decide)
      rw [List.cons_append, chars, if_neg h2, if_neg h1, if_neg h0, if_neg (by omega), ih n rest (by omega)]
  | @short e c s t he _ ih =>
    intro n rest hn
    cases n with
    | zero => omega
    | succ n =>
      simp only [List.length_cons] at hn
      rw [List.cons_append, List.cons_append, chars, if_pos rfl, escape, (simple_iff e c).2 he]
      simp only
      rw [ih n rest (by omega)]
      rfl
  | @unit h s t u hu hne _ ih =>
    intro n rest hn
    cases n with
    | zero => omega
    | succ n =>
      have hb := hex_bound hu
      simp only [List.length_cons, List.length_append] at hn
      rw [List.cons_append, List.cons_append, List.append_assoc, chars, if_pos rfl, escape,
        show simple 'u' = none from rfl]
      simp only [↓reduceIte]
      rw [hex4_hex hu]
      simp only
      rw [if_neg (by omega)]
      simp only
      rw [ih n rest (by omega), utf8_bytes (by omega)]
  | @pair h l s t u v hu hv hhi hlo _ ih =>
    intro n rest hn
    cases n with
    | zero => omega
    | succ n =>
      simp only [List.length_cons, List.length_append] at hn
      rw [List.cons_append, List.cons_append, List.append_assoc, List.cons_append, List.cons_append, List.append_assoc,
        chars, if_pos rfl, escape, show simple 'u' = none from rfl]
      simp only [↓reduceIte]
      rw [hex4_hex hu]
      simp only
      rw [if_pos hhi, consume_cons, Option.bind_some, consume_cons]
      simp only
      rw [hex4_hex hv]
      simp only
      rw [if_neg (by omega)]
      simp only
      rw [ih n rest (by omega)]
      rw [pair_code, utf8_bytes (by omega)]
  | @half h s t u hu hlo _ ih =>
    intro n rest hn
    cases n with
    | zero => omega
    | succ n =>
      simp only [List.length_cons, List.length_append] at hn
      rw [List.cons_append, List.cons_append, List.append_assoc, chars, if_pos rfl, escape,
        show simple 'u' = none from rfl]
      simp only [↓reduceIte]
      rw [hex4_hex hu]
      simp only
      rw [if_neg (by omega)]
      simp only
      rw [ih n rest (by omega), utf8_half hlo]
      rfl

theorem string_chars {s t : Str} (h : Chars s t) (rest : Str) : string (t ++ '"' :: rest) = .ok (s, rest) :=
  chars_chars h _ rest (by simp only [List.length_append]; omega)

end Blackhole.JsonRead
