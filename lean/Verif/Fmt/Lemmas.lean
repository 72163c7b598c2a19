import Verif.Fmt.Spec

/-! # Lemmas about the formatting library -/

namespace Blackhole.Fmt

/-! ## Counting digits -/

theorem or_one (n : Nat) : n ||| 1 = 2 * (n / 2) + 1 := by
  apply Nat.eq_of_testBit_eq
  intro i
  rw [Nat.testBit_or]
  cases i with
  | zero => simp [Nat.testBit_zero]
  | succ i =>
    rw [Nat.testBit_succ, Nat.testBit_succ, Nat.testBit_succ]
    have : (2 * (n / 2) + 1) / 2 = n / 2 := by omega
    rw [this]
    simp

/-- The table facts used below, for every number of bits. -/
theorem powers_table64 : ∀ b : Fin 64,
    let t := ((b.val + 1) * 1233) >>> 12
    t ≤ 19 ∧ 2 ^ (b.val + 1) ≤ 10 ^ (t + 1) ∧ (t ≠ 0 → 10 ^ (t - 1) ≤ 2 ^ b.val ∧ b.val ≠ 0)
      ∧ powers64[t]? = some (if t = 0 then 0 else 10 ^ t) := by decide

theorem powers_table32 : ∀ b : Fin 32,
    let t := ((b.val + 1) * 1233) >>> 12
    t ≤ 9 ∧ 2 ^ (b.val + 1) ≤ 10 ^ (t + 1) ∧ (t ≠ 0 → 10 ^ (t - 1) ≤ 2 ^ b.val ∧ b.val ≠ 0)
      ∧ powers32[t]? = some (if t = 0 then 0 else 10 ^ t) := by decide

theorem length_toDigits_eq {n k : Nat} (h1 : n < 10 ^ (k + 1)) (h2 : k ≠ 0 → 10 ^ k ≤ n) :
    (Nat.toDigits 10 n).length = k + 1 := by
  have hle : (Nat.toDigits 10 n).length ≤ k + 1 := (Nat.length_toDigits_le_iff (by omega) (by omega)).2 h1
  have hpos : 0 < (Nat.toDigits 10 n).length := Nat.length_toDigits_pos
  by_cases hk : k = 0
  · omega
  · have : ¬ (Nat.toDigits 10 n).length ≤ k := by
      rw [Nat.length_toDigits_le_iff (by omega) (by omega)]
      have := h2 hk
      omega
    omega

theorem countDigits_of_table (powers : List Nat) (bits n : Nat) (hn : n < 2 ^ bits) (hbits : bits ≠ 0)
    (table : ∀ b, b < bits →
      let t := ((b + 1) * 1233) >>> 12
      2 ^ (b + 1) ≤ 10 ^ (t + 1) ∧ (t ≠ 0 → 10 ^ (t - 1) ≤ 2 ^ b ∧ b ≠ 0)
        ∧ powers[t]? = some (if t = 0 then 0 else 10 ^ t)) :
    countDigits powers n = .ok (Nat.toDigits 10 n).length := by
  have hor := or_one n
  have hne : n ||| 1 ≠ 0 := by omega
  obtain ⟨hlo, hhi⟩ := (Nat.log2_eq_iff hne).1 rfl
  have hb : Nat.log2 (n ||| 1) < bits := by
    rw [Nat.log2_lt hne, hor]
    obtain ⟨k, rfl⟩ := Nat.exists_eq_succ_of_ne_zero hbits
    rw [Nat.pow_succ] at hn ⊢
    omega
  obtain ⟨h1, h2, h3⟩ := table _ hb
  unfold countDigits
  simp only
  generalize ht : ((Nat.log2 (n ||| 1) + 1) * 1233) >>> 12 = t at *
  generalize Nat.log2 (n ||| 1) = b at *
  rw [h3]
  simp only
  congr 1
  by_cases h0 : t = 0
  · subst h0
    have hpos : 0 < (Nat.toDigits 10 n).length := Nat.length_toDigits_pos
    have : (Nat.toDigits 10 n).length = 0 + 1 := length_toDigits_eq (by omega) (by omega)
    rw [this]
    simp
  · obtain ⟨h4, h5⟩ := h2 h0
    simp only [h0, if_false]
    have hge : 10 ^ (t - 1) ≤ n := by
      obtain ⟨b', rfl⟩ := Nat.exists_eq_succ_of_ne_zero h5
      rw [Nat.pow_succ] at hlo h4
      omega
    by_cases hlt : n < 10 ^ t
    · rw [if_pos hlt]
      have : (Nat.toDigits 10 n).length = (t - 1) + 1 := by
        apply length_toDigits_eq
        · rw [show t - 1 + 1 = t by omega]; exact hlt
        · intro _; exact hge
      omega
    · rw [if_neg hlt]
      have : (Nat.toDigits 10 n).length = t + 1 := by
        apply length_toDigits_eq
        · omega
        · intro _; omega
      omega

theorem countDigits64 (n : Nat) (hn : n < 2 ^ 64) : countDigits powers64 n = .ok (Nat.toDigits 10 n).length := by
  apply countDigits_of_table powers64 64 n hn (by omega)
  intro b hb
  obtain ⟨_, h1, h2, h3⟩ := powers_table64 ⟨b, hb⟩
  exact ⟨h1, h2, h3⟩

theorem countDigits32 (n : Nat) (hn : n < 2 ^ 32) : countDigits powers32 n = .ok (Nat.toDigits 10 n).length := by
  apply countDigits_of_table powers32 32 n hn (by omega)
  intro b hb
  obtain ⟨_, h1, h2, h3⟩ := powers_table32 ⟨b, hb⟩
  exact ⟨h1, h2, h3⟩

/-! ## Writing into the buffer -/

theorem put_at (a b : Buf) (x : Option Char) (c : Char) : put (a ++ x :: b) a.length c = .ok (a ++ some c :: b) := by
  unfold put
  rw [if_pos (by simp)]
  simp

theorem putBefore_at (a b : Buf) (x : Option Char) (c : Char) :
    putBefore (a ++ x :: b) (a.length + 1) c = .ok (a ++ some c :: b, a.length) := by
  unfold putBefore
  simp only [put_at]

theorem fillAt_spec (cs : Str) : ∀ (a h b : Buf), h.length = cs.length →
    fillAt (a ++ h ++ b) a.length cs = .ok (a ++ cs.map some ++ b) := by
  induction cs with
  | nil =>
    intro a h b hl
    have : h = [] := by simpa using hl
    subst this
    simp [fillAt]
  | cons c cs ih =>
    intro a h b hl
    cases h with
    | nil => simp at hl
    | cons x h =>
      have e : a ++ x :: h ++ b = a ++ x :: (h ++ b) := by simp
      rw [fillAt, e, put_at]
      simp only
      have := ih (a ++ [some c]) h b (by simpa using hl)
      simp only [List.length_append, List.length_singleton] at this
      rw [show a ++ some c :: (h ++ b) = a ++ [some c] ++ h ++ b by simp, this]
      simp

theorem finish_some (s : Str) : finish (s.map some) = .ok s := by
  induction s with
  | nil => rfl
  | cons c s ih => simp only [List.map_cons, finish, ih]

theorem digits_table : ∀ i : Fin 100, digitsAt (i.val * 2) = .ok (Nat.digitChar (i.val / 10))
    ∧ digitsAt (i.val * 2 + 1) = .ok (Nat.digitChar (i.val % 10)) := by
  intro i
  have h : ∀ i : Fin 100, DIGITS[i.val * 2]? = some (Nat.digitChar (i.val / 10))
    ∧ DIGITS[i.val * 2 + 1]? = some (Nat.digitChar (i.val % 10)) := by decide
  obtain ⟨h1, h2⟩ := h i
  unfold digitsAt
  rw [h1, h2]
  exact ⟨rfl, rfl⟩

theorem putTwo_at (a b : Buf) (x y : Option Char) (i : Nat) (hi : i < 100) :
    putTwo (a ++ x :: y :: b) (a.length + 2) (i * 2)
      = .ok (a ++ some (Nat.digitChar (i / 10)) :: some (Nat.digitChar (i % 10)) :: b, a.length) := by
  obtain ⟨h1, h2⟩ := digits_table ⟨i, hi⟩
  unfold putTwo
  simp only at h1 h2
  rw [h2, h1]
  have p1 := putBefore_at (a ++ [x]) b y (Nat.digitChar (i % 10))
  simp only [List.append_assoc, List.singleton_append, List.length_append, List.length_singleton] at p1
  have p2 := putBefore_at a (some (Nat.digitChar (i % 10)) :: b) x (Nat.digitChar (i / 10))
  show (putBefore (a ++ x :: y :: b) (a.length + 2) (Nat.digitChar (i % 10)) >>= _) = _
  rw [p1]
  exact p2

theorem digitChar_ofNat : ∀ v : Fin 10, Char.ofNat (48 + v.val) = Nat.digitChar v.val := by decide

theorem toDigits_two {v : Nat} (h : 100 ≤ v) : Nat.toDigits 10 v
    = Nat.toDigits 10 (v / 100) ++ [Nat.digitChar (v % 100 / 10), Nat.digitChar (v % 100 % 10)] := by
  rw [Nat.toDigits_of_base_le (by omega) (by omega), Nat.toDigits_of_base_le (n := v / 10) (by omega) (by omega),
    show v / 10 / 10 = v / 100 by omega, show v / 10 % 10 = v % 100 / 10 by omega,
    show v % 100 % 10 = v % 10 by omega]
  simp

theorem formatDecimal_spec (fuel : Nat) : ∀ (v : Nat) (a h b : Buf), v < 10 ^ fuel → fuel ≠ 0 →
    h.length = (Nat.toDigits 10 v).length →
    formatDecimal fuel (a ++ h ++ b) (a.length + h.length) v = .ok (a ++ (Nat.toDigits 10 v).map some ++ b) := by
  induction fuel with
  | zero => intro v a h b _ h; exact absurd rfl h
  | succ fuel ih =>
    intro v a h b hv _ hl
    unfold formatDecimal
    by_cases h100 : v ≥ 100
    · rw [if_pos h100]
      rw [toDigits_two h100] at hl ⊢
      simp only [List.length_append, List.length_cons, List.length_nil] at hl
      obtain ⟨h', x, y, rfl⟩ : ∃ h' x y, h = h' ++ [x, y] := by
        rcases List.eq_nil_or_concat h with rfl | ⟨h1, y, rfl⟩
        · simp at hl
        · rw [List.concat_eq_append] at hl ⊢
          rcases List.eq_nil_or_concat h1 with rfl | ⟨h2, x, rfl⟩
          · have : 0 < (Nat.toDigits 10 (v / 100)).length := Nat.length_toDigits_pos
            simp at hl
          · exact ⟨h2, x, y, by simp⟩
      simp only [List.length_append, List.length_cons, List.length_nil] at hl
      have p := putTwo_at (a ++ h') b x y (v % 100) (Nat.mod_lt _ (by omega))
      have e1 : a ++ (h' ++ [x, y]) ++ b = a ++ h' ++ x :: y :: b := by simp
      have e2 : a.length + (h' ++ [x, y]).length = (a ++ h').length + 2 := by simp; omega
      rw [e1, e2]
      show (putTwo _ _ _ >>= _) = _
      rw [p]
      show formatDecimal fuel _ _ _ = _
      have := ih (v / 100) a h' (some (Nat.digitChar (v % 100 / 10)) :: some (Nat.digitChar (v % 100 % 10)) :: b)
        (by rw [Nat.pow_succ] at hv; omega) (by rintro rfl; omega) (by omega)
      rw [List.length_append, this]
      simp
    · rw [if_neg h100]
      by_cases h10 : v < 10
      · rw [if_pos h10]
        rw [Nat.toDigits_of_lt_base h10] at hl ⊢
        obtain ⟨x, rfl⟩ : ∃ x, h = [x] := by
          match h, hl with
          | [x], _ => exact ⟨x, rfl⟩
        have p := putBefore_at a b x (Char.ofNat (48 + v))
        have e1 : a ++ [x] ++ b = a ++ x :: b := by simp
        rw [e1]
        show (putBefore _ (a.length + 1) _ >>= _) = _
        rw [p, digitChar_ofNat ⟨v, h10⟩]
        simp [bind, Except.bind]
      · rw [if_neg h10]
        have ht : Nat.toDigits 10 v = [Nat.digitChar (v / 10), Nat.digitChar (v % 10)] := by
          rw [Nat.toDigits_of_base_le (by omega) (by omega), Nat.toDigits_of_lt_base (by omega)]
          rfl
        rw [ht] at hl ⊢
        obtain ⟨x, y, rfl⟩ : ∃ x y, h = [x, y] := by
          match h, hl with
          | [x, y], _ => exact ⟨x, y, rfl⟩
        have p := putTwo_at a b x y v (by omega)
        have e1 : a ++ [x, y] ++ b = a ++ x :: y :: b := by simp
        rw [e1]
        show (putTwo _ (a.length + 2) _ >>= _) = _
        rw [p]
        simp [bind, Except.bind]

/-! ## The other bases -/

theorem countLoop_spec (base : Nat) (hb : 1 < base) (fuel : Nat) : ∀ n, n < base ^ fuel → fuel ≠ 0 →
    countLoop base fuel n = .ok (Nat.toDigits base n).length := by
  induction fuel with
  | zero => intro n _ h; exact absurd rfl h
  | succ fuel ih =>
    intro n hn _
    unfold countLoop
    by_cases h : n / base = 0
    · rw [if_pos h]
      have : n < base := by
        rcases Nat.lt_or_ge n base with h' | h'
        · exact h'
        · have := Nat.div_pos h' (by omega)
          omega
      rw [Nat.toDigits_of_lt_base this]
      rfl
    · rw [if_neg h]
      have hge : base ≤ n := by
        rcases Nat.lt_or_ge n base with h' | h'
        · exact absurd (Nat.div_eq_of_lt h') h
        · exact h'
      have hlt : n / base < base ^ fuel := by
        rw [Nat.div_lt_iff_lt_mul (by omega)]
        rw [Nat.pow_succ] at hn
        exact hn
      have hf : fuel ≠ 0 := by
        rintro rfl
        simp at hlt
        omega
      rw [ih _ hlt hf, Nat.toDigits_of_base_le hb hge]
      simp

theorem writeLoop_spec (base : Nat) (hb : 1 < base) (digits : Str) (f : Char → Char)
    (hd : ∀ d, d < base → digits[d]? = some (f (Nat.digitChar d))) (fuel : Nat) :
    ∀ (n : Nat) (a h b : Buf), n < base ^ fuel → fuel ≠ 0 → h.length = (Nat.toDigits base n).length →
    writeLoop base digits fuel (a ++ h ++ b) (a.length + h.length) n
      = .ok (a ++ ((Nat.toDigits base n).map f).map some ++ b) := by
  induction fuel with
  | zero => intro n a h b _ h; exact absurd rfl h
  | succ fuel ih =>
    intro n a h b hn _ hl
    unfold writeLoop
    rw [hd _ (Nat.mod_lt _ (by omega))]
    simp only
    obtain ⟨h', x, rfl⟩ : ∃ h' x, h = h' ++ [x] := by
      rcases List.eq_nil_or_concat h with rfl | ⟨h1, x, rfl⟩
      · have : 0 < (Nat.toDigits base n).length := Nat.length_toDigits_pos
        simp at hl
        omega
      · exact ⟨h1, x, by simp⟩
    have p := putBefore_at (a ++ h') b x (f (Nat.digitChar (n % base)))
    have e1 : a ++ (h' ++ [x]) ++ b = a ++ h' ++ x :: b := by simp
    have e2 : a.length + (h' ++ [x]).length = (a ++ h').length + 1 := by simp; omega
    rw [e1, e2, p]
    simp only
    by_cases h : n / base = 0
    · rw [if_pos h]
      have hlt : n < base := by
        rcases Nat.lt_or_ge n base with h' | h'
        · exact h'
        · have := Nat.div_pos h' (by omega)
          omega
      rw [Nat.toDigits_of_lt_base hlt] at hl ⊢
      have : h' = [] := by simpa using hl
      subst this
      rw [Nat.mod_eq_of_lt hlt]
      simp
    · rw [if_neg h]
      have hge : base ≤ n := by
        rcases Nat.lt_or_ge n base with h' | h'
        · exact absurd (Nat.div_eq_of_lt h') h
        · exact h'
      have hlt : n / base < base ^ fuel := by
        rw [Nat.div_lt_iff_lt_mul (by omega)]
        rw [Nat.pow_succ] at hn
        exact hn
      have hf : fuel ≠ 0 := by
        rintro rfl
        simp at hlt
        omega
      rw [Nat.toDigits_of_base_le hb hge] at hl ⊢
      have := ih (n / base) a h' (some (f (Nat.digitChar (n % base))) :: b) hlt hf (by simpa using hl)
      rw [List.length_append, this]
      simp

/-! ## The frame around the digits -/

/-- What stands before and after the digits. -/
def frame (spec : Spec) (pre : Str) (numDigits : Nat) : Str × Str :=
  let n := pre.length + numDigits
  if spec.width ≤ n then (pre, [])
  else
    let gap := spec.width - n
    match spec.align with
    | .left => (pre, List.replicate gap spec.fill)
    | .center => (List.replicate (gap / 2) spec.fill ++ pre, List.replicate (gap - gap / 2) spec.fill)
    | .numeric => (pre ++ List.replicate gap spec.fill, [])
    | _ => (List.replicate gap spec.fill ++ pre, [])

theorem replicate_split {α : Type} (a b : Nat) (x : α) :
    List.replicate (a + b) x = List.replicate a x ++ List.replicate b x := by simp [List.replicate_append_replicate]

theorem prepare_spec (k : Nat) (spec : Spec) (pre : Str) :
    prepare k spec pre = .ok ((frame spec pre k).1.map some ++ List.replicate k none ++ (frame spec pre k).2.map some,
      (frame spec pre k).1.length + k) := by
  unfold prepare frame
  simp only
  by_cases hw : spec.width ≤ pre.length + k
  · rw [if_pos hw, if_pos hw]
    have := fillAt_spec pre [] (List.replicate pre.length none) (List.replicate k none) (by simp)
    simp only [List.nil_append, List.length_nil] at this
    rw [replicate_split, this]
    simp [bind, Except.bind]
  · rw [if_neg hw, if_neg hw]
    generalize hg : spec.width - (pre.length + k) = gap
    have hwidth : spec.width = pre.length + k + gap := by omega
    cases spec.align with
    | left =>
      simp only
      rw [hwidth, replicate_split, replicate_split]
      have h1 := fillAt_spec pre [] (List.replicate pre.length none) (List.replicate k none ++ List.replicate gap none)
        (by simp)
      simp only [List.nil_append, List.length_nil] at h1
      rw [List.append_assoc, h1]
      have h2 := fillAt_spec (List.replicate gap spec.fill) (pre.map some ++ List.replicate k none)
        (List.replicate gap none) [] (by simp)
      simp only [List.append_nil, List.length_append, List.length_map, List.length_replicate] at h2
      simp only [bind, Except.bind]
      rw [← List.append_assoc, h2]
    | center =>
      simp only
      have hgap : gap = gap / 2 + (gap - gap / 2) := by omega
      have hw2 : spec.width = gap / 2 + (pre.length + k) + (gap - gap / 2) := by omega
      generalize hl : gap / 2 = l at *
      generalize hr : gap - l = r at *
      rw [hw2, replicate_split, replicate_split, replicate_split]
      have h1 := fillAt_spec (List.replicate l spec.fill) [] (List.replicate l none)
        ((List.replicate pre.length none ++ List.replicate k none) ++ List.replicate r none) (by simp)
      simp only [List.nil_append, List.length_nil] at h1
      rw [List.append_assoc, h1]
      simp only [bind, Except.bind]
      have h2 := fillAt_spec (List.replicate r spec.fill) ((List.replicate l spec.fill).map some
        ++ (List.replicate pre.length none ++ List.replicate k none)) (List.replicate r none) [] (by simp)
      simp only [List.append_nil, List.length_append, List.length_map, List.length_replicate] at h2
      rw [← List.append_assoc, h2]
      simp only
      have h3 := fillAt_spec pre ((List.replicate l spec.fill).map some) (List.replicate pre.length none)
        (List.replicate k none ++ (List.replicate r spec.fill).map some) (by simp)
      simp only [List.length_map, List.length_replicate] at h3
      have e : (List.replicate l spec.fill).map some ++ (List.replicate pre.length none ++ List.replicate k none)
          ++ (List.replicate r spec.fill).map some = (List.replicate l spec.fill).map some
            ++ List.replicate pre.length none ++ (List.replicate k none ++ (List.replicate r spec.fill).map some) := by
        simp only [List.append_assoc]
      rw [e, h3]
      simp
      omega
    | numeric =>
      simp only
      rw [hwidth]
      have e : List.replicate (pre.length + k + gap) (none : Option Char)
          = List.replicate pre.length none ++ (List.replicate gap none ++ List.replicate k none) := by
        rw [← replicate_split, ← replicate_split]; congr 1; omega
      rw [e]
      have h1 := fillAt_spec pre [] (List.replicate pre.length none) (List.replicate gap none ++ List.replicate k none)
        (by simp)
      simp only [List.nil_append, List.length_nil] at h1
      rw [h1]
      simp only [bind, Except.bind]
      rw [show pre.length + k + gap - (pre.length + k - pre.length) - pre.length = gap by omega]
      have h2 := fillAt_spec (List.replicate gap spec.fill) (pre.map some) (List.replicate gap none)
        (List.replicate k none) (by simp)
      simp only [List.length_map] at h2
      rw [← List.append_assoc, h2]
      simp
      omega
    | default =>
      simp only
      rw [hwidth]
      have e : List.replicate (pre.length + k + gap) (none : Option Char)
          = List.replicate gap none ++ List.replicate pre.length none ++ List.replicate k none := by
        rw [← replicate_split, ← replicate_split]; congr 1; omega
      rw [e]
      have h1 := fillAt_spec pre (List.replicate gap none) (List.replicate pre.length none) (List.replicate k none)
        (by simp)
      simp only [List.length_replicate] at h1
      rw [h1]
      simp only [bind, Except.bind]
      have h2 := fillAt_spec (List.replicate gap spec.fill) [] (List.replicate gap none)
        (pre.map some ++ List.replicate k none) (by simp)
      simp only [List.nil_append, List.length_nil] at h2
      rw [List.append_assoc, h2]
      simp
      omega
    | right =>
      simp only
      rw [hwidth]
      have e : List.replicate (pre.length + k + gap) (none : Option Char)
          = List.replicate gap none ++ List.replicate pre.length none ++ List.replicate k none := by
        rw [← replicate_split, ← replicate_split]; congr 1; omega
      rw [e]
      have h1 := fillAt_spec pre (List.replicate gap none) (List.replicate pre.length none) (List.replicate k none)
        (by simp)
      simp only [List.length_replicate] at h1
      rw [h1]
      simp only [bind, Except.bind]
      have h2 := fillAt_spec (List.replicate gap spec.fill) [] (List.replicate gap none)
        (pre.map some ++ List.replicate k none) (by simp)
      simp only [List.nil_append, List.length_nil] at h2
      rw [List.append_assoc, h2]
      simp
      omega

/-! ## Whole numbers -/

theorem frame_text (spec : Spec) (pre ds : Str) :
    (frame spec pre ds.length).1 ++ ds ++ (frame spec pre ds.length).2 = layout spec pre ds := by
  unfold frame layout
  simp only
  by_cases h : spec.width ≤ pre.length + ds.length
  · rw [if_pos h]
    have : spec.width - (pre.length + ds.length) = 0 := by omega
    rw [this]
    cases spec.align <;> simp
  · rw [if_neg h]
    cases spec.align <;> simp

theorem writeDecimal (bits abs : Nat) (hb : bits = 32 ∨ bits = 64) (habs : abs < 2 ^ bits) (spec : Spec) (pre : Str) :
    (do
      let n ← countDigits (if bits ≤ 32 then powers32 else powers64) abs
      let (b, e) ← prepare n spec pre
      let b ← formatDecimal (bits + 1) b e abs
      finish b) = .ok (layout spec pre (Nat.toDigits 10 abs)) := by
  have hc : countDigits (if bits ≤ 32 then powers32 else powers64) abs = .ok (Nat.toDigits 10 abs).length := by
    rcases hb with rfl | rfl
    · exact countDigits32 abs habs
    · exact countDigits64 abs habs
  have hlt : abs < 10 ^ (bits + 1) := by
    refine Nat.lt_of_lt_of_le habs (Nat.le_trans (Nat.pow_le_pow_left (by omega : 2 ≤ 10) bits) ?_)
    exact Nat.pow_le_pow_right (by omega) (by omega)
  rw [hc]
  simp only [bind, Except.bind]
  rw [prepare_spec]
  simp only
  have := formatDecimal_spec (bits + 1) abs ((frame spec pre (Nat.toDigits 10 abs).length).1.map some)
    (List.replicate (Nat.toDigits 10 abs).length none) ((frame spec pre (Nat.toDigits 10 abs).length).2.map some)
    hlt (by omega) (by simp)
  simp only [List.length_map, List.length_replicate] at this
  rw [this]
  simp only
  rw [← List.map_append, ← List.map_append, finish_some, frame_text]

theorem writeBased (bits abs base : Nat) (hbase : 1 < base) (habs : abs < 2 ^ bits) (digits : Str) (f : Char → Char)
    (hd : ∀ d, d < base → digits[d]? = some (f (Nat.digitChar d))) (spec : Spec) (pre : Str) :
    (do
      let n ← countLoop base (bits + 1) abs
      let (b, e) ← prepare n spec pre
      let b ← writeLoop base digits (bits + 1) b e abs
      finish b) = .ok (layout spec pre ((Nat.toDigits base abs).map f)) := by
  have hlt : abs < base ^ (bits + 1) := by
    refine Nat.lt_of_lt_of_le habs (Nat.le_trans (Nat.pow_le_pow_left (by omega : 2 ≤ base) bits) ?_)
    exact Nat.pow_le_pow_right (by omega) (by omega)
  rw [countLoop_spec base hbase _ _ hlt (by omega)]
  simp only [bind, Except.bind]
  rw [prepare_spec]
  simp only
  have := writeLoop_spec base hbase digits f hd (bits + 1) abs
    ((frame spec pre (Nat.toDigits base abs).length).1.map some)
    (List.replicate (Nat.toDigits base abs).length none) ((frame spec pre (Nat.toDigits base abs).length).2.map some)
    hlt (by omega) (by simp)
  simp only [List.length_map, List.length_replicate] at this
  rw [this]
  simp only
  rw [← List.map_append, ← List.map_append, finish_some]
  have h2 := frame_text spec pre ((Nat.toDigits base abs).map f)
  rw [List.length_map] at h2
  rw [h2]

theorem lower_table (base : Nat) (h : base ≤ 16) : ∀ d, d < base → lower[d]? = some (id (Nat.digitChar d)) := by
  intro d hd
  have t : ∀ d : Fin 16, lower[d.val]? = some (Nat.digitChar d.val) := by decide
  exact t ⟨d, by omega⟩

theorem upper_table : ∀ d, d < 16 → upper[d]? = some (Char.toUpper (Nat.digitChar d)) := by
  intro d hd
  have t : ∀ d : Fin 16, upper[d.val]? = some (Char.toUpper (Nat.digitChar d.val)) := by decide
  exact t ⟨d, hd⟩

theorem abs_eq (bits : Nat) (z : Int) (h1 : -2 ^ bits < z) (h2 : z < 2 ^ bits) :
    (if z < 0 then (2 ^ bits - (z % 2 ^ bits).toNat) % 2 ^ bits else (z % 2 ^ bits).toNat) = z.natAbs := by
  have e : (2 : Int) ^ bits = ((2 ^ bits : Nat) : Int) := by simp
  rw [e] at h1 h2 ⊢
  generalize 2 ^ bits = m at *
  clear e
  split
  · rename_i hz
    have : z % (m : Int) = z + m := by
      rw [← Int.add_emod_right z m, Int.emod_eq_of_lt (by omega) (by omega)]
    rw [this, Nat.mod_eq_of_lt (by omega)]
    omega
  · rw [Int.emod_eq_of_lt (by omega) (by omega)]
    omega

theorem unknownType_eq (c : Char) (type : Str) : unknownType c type = refusal c type := by
  unfold unknownType refusal codeText
  have h1 : (' ' ≤ c ∧ c < '\x7f') ↔ (32 ≤ c.toNat ∧ c.toNat ≤ 126) := by
    rw [Char.le_def, Char.lt_def, UInt32.le_iff_toNat_le, UInt32.lt_iff_toNat_lt]
    show (32 ≤ c.toNat ∧ c.toNat < 127) ↔ _
    omega
  simp only [h1]
  split
  · rfl
  · rename_i hp
    by_cases h16 : c.toNat < 16
    · rw [if_pos h16, if_pos (by omega), Nat.toDigits_of_lt_base h16]
      rfl
    · rw [if_neg h16]
      have hlen : ∀ n, 16 ≤ n → 2 - (Nat.toDigits 16 n).length = 0 := by
        intro n hn
        have : 1 < (Nat.toDigits 16 n).length := by
          rw [Nat.toDigits_of_base_le (by decide) hn, List.length_append]
          have : 0 < (Nat.toDigits 16 (n / 16)).length := Nat.length_toDigits_pos
          simp only [List.length_singleton]; omega
        omega
      split
      · rw [hlen _ (by omega)]; simp
      · rw [hlen _ (by omega), Nat.add_comm]; simp

theorem writeInt_eq (bits : Nat) (charFlag : Bool) (hb : bits = 32 ∨ bits = 64) (spec : Spec) (z : Int)
    (h1 : -2 ^ bits < z) (h2 : z < 2 ^ bits) : writeInt bits charFlag spec z =
      match intDigits spec z.natAbs with
      | some (pre, ds) => .ok (layout spec (signText spec z ++ pre) ds)
      | none => .error (refusal (spec.type.getD ' ') (if charFlag then ch! "char" else ch! "integer")) := by
  simp only [← unknownType_eq]
  have habs := abs_eq bits z h1 h2
  have hlt : z.natAbs < 2 ^ bits := by
    have e : (2 : Int) ^ bits = ((2 ^ bits : Nat) : Int) := by simp
    rw [e] at h1 h2
    omega
  have hp : (if z < 0 then (['-'], (2 ^ bits - (z % 2 ^ bits).toNat) % 2 ^ bits)
      else if spec.sign then (if spec.plus then ['+'] else [' '], (z % 2 ^ bits).toNat)
      else (([] : Str), (z % 2 ^ bits).toNat)) = (signText spec z, z.natAbs) := by
    rw [← habs]
    unfold signText
    split
    · rfl
    · split
      · rfl
      · rfl
  have ap (s : Str) : (if spec.hash = true then signText spec z ++ s else signText spec z)
      = signText spec z ++ (if spec.hash = true then s else []) := by
    split <;> simp
  unfold writeInt intDigits
  simp only
  rw [hp]
  simp only
  split
  · rename_i heq
    simp only [heq]
    simpa using writeDecimal bits z.natAbs hb hlt spec _
  · rename_i heq
    simp only [heq]
    simpa using writeDecimal bits z.natAbs hb hlt spec _
  · rename_i heq
    simp only [heq]
    rw [ap, ← List.map_id (Nat.toDigits 16 z.natAbs)]
    exact writeBased bits _ 16 (by omega) hlt lower id (lower_table 16 (by omega)) spec _
  · rename_i heq
    simp only [heq]
    rw [ap]
    exact writeBased bits _ 16 (by omega) hlt upper Char.toUpper upper_table spec _
  · rename_i heq
    simp only [heq]
    rw [ap, ← List.map_id (Nat.toDigits 2 z.natAbs)]
    exact writeBased bits _ 2 (by omega) hlt lower id (lower_table 2 (by omega)) spec _
  · rename_i heq
    simp only [heq]
    rw [ap, ← List.map_id (Nat.toDigits 2 z.natAbs)]
    exact writeBased bits _ 2 (by omega) hlt lower id (lower_table 2 (by omega)) spec _
  · rename_i heq
    simp only [heq]
    rw [ap, ← List.map_id (Nat.toDigits 8 z.natAbs)]
    exact writeBased bits _ 8 (by omega) hlt lower id (lower_table 8 (by omega)) spec _
  · rename_i c h1 h2 h3 h4 h5 h6 heq
    simp only [heq]
    simp only [Option.getD_some]

end Blackhole.Fmt
