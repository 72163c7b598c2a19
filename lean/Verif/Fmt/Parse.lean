import Verif.Fmt.Spec
import Verif.Config.Lemmas

/-! # Lemmas about the parser of format strings -/

namespace Blackhole.Fmt

/-! ## Numbers -/

theorem digitChar_isDigit : ∀ d : Fin 10, isDigit (Nat.digitChar d.val) = true
    ∧ (Nat.digitChar d.val).toNat - 48 = d.val := by decide

theorem ofDigitChars_cons (v : Nat) (c : Char) (cs : Str) :
    Nat.ofDigitChars 10 (c :: cs) v = Nat.ofDigitChars 10 cs (v * 10 + (c.toNat - 48)) := by
  unfold Nat.ofDigitChars
  rw [List.foldl_cons, Nat.mul_comm 10 v]
  rfl

theorem le_ofDigitChars (cs : Str) : ∀ v, v ≤ Nat.ofDigitChars 10 cs v := by
  induction cs with
  | nil => intro v; exact Nat.le_refl _
  | cons c cs ih =>
    intro v
    rw [ofDigitChars_cons]
    have := ih (v * 10 + (c.toNat - 48))
    omega

theorem parseDigits_spec (ds rest : Str) (hrest : isDigit (peek rest) = false) : ∀ v,
    (∀ c ∈ ds, isDigit c = true) → Nat.ofDigitChars 10 ds v < 2 ^ 32 →
    parseDigits v (ds ++ rest) = (Nat.ofDigitChars 10 ds v, rest) := by
  induction ds with
  | nil =>
    intro v _ _
    cases rest with
    | nil => rfl
    | cons c s =>
      simp only [peek] at hrest
      simp [parseDigits, hrest, Nat.ofDigitChars]
  | cons c cs ih =>
    intro v hd hlt
    rw [ofDigitChars_cons] at hlt ⊢
    have hle := le_ofDigitChars cs (v * 10 + (c.toNat - 48))
    rw [List.cons_append, parseDigits, if_pos (hd c (by simp)), Nat.mod_eq_of_lt (by omega)]
    simp only
    rw [if_neg (by omega)]
    exact ih _ (fun x hx => hd x (by simp [hx])) hlt

theorem toDigits_isDigit (n : Nat) : ∀ c ∈ Nat.toDigits 10 n, isDigit c = true := by
  induction n using Nat.strongRecOn with
  | _ n ih =>
    rcases Nat.lt_or_ge n 10 with h | h
    · rw [Nat.toDigits_of_lt_base h]
      intro c hc
      simp only [List.mem_singleton] at hc
      rw [hc]
      exact (digitChar_isDigit ⟨n, h⟩).1
    · rw [Nat.toDigits_of_base_le (by omega) h]
      intro c hc
      rw [List.mem_append] at hc
      rcases hc with hc | hc
      · exact ih _ (by omega) c hc
      · simp only [List.mem_singleton] at hc
        rw [hc]
        exact (digitChar_isDigit ⟨n % 10, Nat.mod_lt _ (by omega)⟩).1

theorem parseNonneg_spec (n : Nat) (hn : n < 2 ^ 31) (rest : Str) (hrest : isDigit (peek rest) = false) :
    parseNonneg (Nat.toDigits 10 n ++ rest) = .ok (n, rest) := by
  have hval : Nat.ofDigitChars 10 (Nat.toDigits 10 n) 0 = n := Nat.ofDigitChars_ten_toDigits
  unfold parseNonneg
  rw [parseDigits_spec _ _ hrest 0 (toDigits_isDigit n) (by rw [hval]; omega), hval]
  simp only
  rw [if_neg (by omega)]

theorem peek_append {a : Str} (b : Str) (h : a ≠ []) : peek (a ++ b) = peek a := by
  cases a with
  | nil => exact absurd rfl h
  | cons c a => rfl

theorem peek_toDigits (n : Nat) : isDigit (peek (Nat.toDigits 10 n)) = true := by
  cases h : Nat.toDigits 10 n with
  | nil => exact absurd h Nat.toDigits_ne_nil
  | cons c cs =>
    apply toDigits_isDigit n
    rw [h]
    exact List.mem_cons_self

/-- The first digit of a positive number is not zero. -/
theorem peek_toDigits_ne_zero (n : Nat) (hn : 0 < n) : peek (Nat.toDigits 10 n) ≠ '0' := by
  induction n using Nat.strongRecOn with
  | _ n ih =>
    rcases Nat.lt_or_ge n 10 with h | h
    · rw [Nat.toDigits_of_lt_base h]
      have : ∀ d : Fin 10, 0 < d.val → Nat.digitChar d.val ≠ '0' := by decide
      exact this ⟨n, h⟩ hn
    · rw [Nat.toDigits_of_base_le (by omega) h, peek_append _ Nat.toDigits_ne_nil]
      exact ih _ (by omega) (by omega)

/-! ## The stages of a specification -/

/-- What may come after the precision, the width and so on. -/
def ok6 (c : Char) : Bool := c == '}' || letter c
def ok5 (c : Char) : Bool := ok6 c || c == '.'
def ok4 (c : Char) : Bool := ok5 c || (isDigit c && c != '0')
def ok3 (c : Char) : Bool := ok4 c || c == '0'
def ok2 (c : Char) : Bool := ok3 c || c == '#'
def ok1 (c : Char) : Bool := ok2 c || c == '+' || c == '-' || c == ' '

theorem ok_cases {c d : Char} {f : Char → Bool} (h : f c = true) (hd : f d = false) : c ≠ d := by
  rintro rfl
  rw [h] at hd
  cases hd

def r6 (t : SpecText) (tail : Str) : Str := t.type.toList ++ '}' :: tail
def r5 (t : SpecText) (tail : Str) : Str :=
  (match t.precision with
    | none => []
    | some p => '.' :: Nat.toDigits 10 p) ++ r6 t tail
def r4 (t : SpecText) (tail : Str) : Str :=
  (match t.width with
    | none => []
    | some w => Nat.toDigits 10 w) ++ r5 t tail
def r3 (t : SpecText) (tail : Str) : Str := (if t.zero then ['0'] else []) ++ r4 t tail
def r2 (t : SpecText) (tail : Str) : Str := (if t.hash then ['#'] else []) ++ r3 t tail
def r1 (t : SpecText) (tail : Str) : Str := t.sign.toList ++ r2 t tail
def r0 (t : SpecText) (tail : Str) : Str :=
  (match t.align with
    | none => []
    | some (f, al) => f.toList ++ [alignChar al]) ++ r1 t tail

theorem print_eq (t : SpecText) (tail : Str) : t.print ++ '}' :: tail = r0 t tail := by
  unfold SpecText.print r0 r1 r2 r3 r4 r5 r6
  simp only [List.append_assoc]
  rfl

theorem peek_r6 {t : SpecText} (hv : t.Valid) (tail : Str) : ok6 (peek (r6 t tail)) = true := by
  unfold r6
  cases h : t.type with
  | none => rfl
  | some c =>
    have := hv.type c h
    simp [peek, ok6, this]

theorem peek_r5 {t : SpecText} (hv : t.Valid) (tail : Str) : ok5 (peek (r5 t tail)) = true := by
  unfold r5
  cases h : t.precision with
  | none => simp [ok5, peek_r6 hv tail]
  | some p => rfl

theorem peek_r4 {t : SpecText} (hv : t.Valid) (tail : Str) : ok4 (peek (r4 t tail)) = true := by
  unfold r4
  cases h : t.width with
  | none => simp [ok4, peek_r5 hv tail]
  | some w =>
    simp only
    rw [peek_append _ Nat.toDigits_ne_nil]
    have h1 := peek_toDigits w
    have h2 := peek_toDigits_ne_zero w (hv.width w h).1
    simp [ok4, h1, h2]

theorem peek_r3 {t : SpecText} (hv : t.Valid) (tail : Str) : ok3 (peek (r3 t tail)) = true := by
  unfold r3
  cases h : t.zero with
  | false => simp [ok3, peek_r4 hv tail]
  | true => rfl

theorem peek_r2 {t : SpecText} (hv : t.Valid) (tail : Str) : ok2 (peek (r2 t tail)) = true := by
  unfold r2
  cases h : t.hash with
  | false => simp [ok2, peek_r3 hv tail]
  | true => rfl

theorem peek_r1 {t : SpecText} (hv : t.Valid) (tail : Str) : ok1 (peek (r1 t tail)) = true := by
  unfold r1
  cases h : t.sign with
  | none => simp [ok1, peek_r2 hv tail]
  | some c => rcases hv.sign c h with rfl | rfl | rfl <;> rfl

theorem alignOf_none {c : Char} (h : ok1 c = true) : alignOf c = none := by
  unfold alignOf
  split <;> first | rfl | (revert h; decide)

theorem alignOf_alignChar {al : Align} (h : al ≠ .default) : alignOf (alignChar al) = some al := by
  cases al <;> first | rfl | exact absurd rfl h

theorem mem_ok1 {t : SpecText} (hv : t.Valid) (h : t.align = none) : ∀ c ∈ t.print, ok1 c = true := by
  intro c hc
  unfold SpecText.print at hc
  rw [h] at hc
  simp only [List.nil_append, List.mem_append, Option.mem_toList] at hc
  rcases hc with hc | hc | hc | hc | hc | hc
  · rcases hv.sign c hc with rfl | rfl | rfl <;> rfl
  · split at hc
    · simp only [List.mem_singleton] at hc; subst hc; rfl
    · cases hc
  · split at hc
    · simp only [List.mem_singleton] at hc; subst hc; rfl
    · cases hc
  · split at hc
    · cases hc
    · have := toDigits_isDigit _ c hc
      by_cases hz : c = '0'
      · subst hz; rfl
      · simp [ok1, ok2, ok3, ok4, this, hz]
  · split at hc
    · cases hc
    · rw [List.mem_cons] at hc
      rcases hc with rfl | hc
      · rfl
      · have := toDigits_isDigit _ c hc
        by_cases hz : c = '0'
        · subst hz; rfl
        · simp [ok1, ok2, ok3, ok4, this, hz]
  · have := hv.type c hc
    simp [ok1, ok2, ok3, ok4, ok5, ok6, this]

/-- The alignment and the fill of a text. -/
def s1 (t : SpecText) : Spec :=
  match t.align with
  | none => {}
  | some (none, al) => { align := al }
  | some (some f, al) => { align := al, fill := f }

theorem parseAlign_spec {t : SpecText} (hv : t.Valid) {a : Arg}
    (hf : (∃ f, t.align = some (f, .numeric)) → a.isNumeric = true) (tail : Str) :
    parseAlign a {} (r0 t tail) = .ok (s1 t, r1 t tail) := by
  cases h : t.align with
  | none =>
    have h0 : r0 t tail = r1 t tail := by simp [r0, h]
    have hm := mem_ok1 hv h
    have hp := print_eq t tail
    unfold s1
    rw [h]
    simp only
    rw [← h0, ← hp]
    obtain ⟨c, cs, hcs⟩ := List.exists_cons_of_ne_nil hv.nonempty
    rw [hcs] at hm ⊢
    have hp2 : alignOf (peek (cs ++ '}' :: tail)) = none := by
      cases cs with
      | nil => rfl
      | cons d ds => exact alignOf_none (hm d (by simp))
    rw [List.cons_append]
    unfold parseAlign
    simp only [hp2, alignOf_none (hm c (by simp))]
  | some x =>
    obtain ⟨f, al⟩ := x
    have hal := hv.align f al h
    have after (sp : Spec) (hsp : sp.align = al) : afterAlign a sp (r1 t tail) = .ok (sp, r1 t tail) := by
      unfold afterAlign
      split
      · rename_i hn
        rw [hsp] at hn
        subst hn
        have := hf ⟨f, h⟩
        simp [requireNumeric, this]
      · rfl
    unfold s1 r0
    rw [h]
    cases f with
    | none =>
      simp only [Option.toList_none, List.nil_append, List.singleton_append]
      unfold parseAlign
      simp only [alignOf_none (peek_r1 hv tail), alignOf_alignChar hal]
      exact after _ rfl
    | some f =>
      obtain ⟨hf1, hf2, _⟩ := hv.fill f al h
      simp only [Option.toList_some, List.cons_append, List.nil_append]
      unfold parseAlign
      simp only [peek, alignOf_alignChar hal]
      rw [if_neg hf2, if_neg hf1]
      simp only [List.drop_succ_cons, List.drop_zero]
      exact after _ rfl

def s2 (t : SpecText) : Spec :=
  match t.sign with
  | some '+' => { s1 t with sign := true, plus := true }
  | some '-' => { s1 t with minus := true }
  | some ' ' => { s1 t with sign := true }
  | _ => s1 t

theorem checkSign_ok {a : Arg} (c : Char) (h1 : a.isNumeric) (h2 : (∀ n, a ≠ .uint n) ∧ ∀ n, a ≠ .ulong n) :
    checkSign a c = .ok () := by
  unfold checkSign requireNumeric
  rw [if_pos h1]
  simp only
  split
  · exact absurd rfl (h2.1 _)
  · exact absurd rfl (h2.2 _)
  · rfl

theorem parseSign_spec {t : SpecText} (hv : t.Valid) {a : Arg} (hf : t.sign ≠ none → a.isNumeric = true)
    (hs : t.sign ≠ none → (∀ n, a ≠ .uint n) ∧ ∀ n, a ≠ .ulong n) (tail : Str) :
    parseSign a (s1 t) (r1 t tail) = .ok (s2 t, r2 t tail) := by
  unfold r1
  cases h : t.sign with
  | none =>
    have hok := peek_r2 hv tail
    simp only [Option.toList_none, List.nil_append]
    have e2 : s2 t = s1 t := by simp [s2, h]
    rw [e2]
    unfold parseSign
    split
    · rename_i e; rw [e] at hok; simp only [peek] at hok; exact absurd hok (by decide)
    · rename_i e; rw [e] at hok; simp only [peek] at hok; exact absurd hok (by decide)
    · rename_i e; rw [e] at hok; simp only [peek] at hok; exact absurd hok (by decide)
    · rfl
  | some c =>
    have hc := checkSign_ok (a := a)
    have h1 : a.isNumeric := hf (by simp [h])
    have h2 := hs (by simp [h])
    rcases hv.sign c h with rfl | rfl | rfl <;>
      simp [parseSign, s2, h, checkSign_ok _ h1 h2, Except.map]

def s3 (t : SpecText) : Spec := if t.hash then { s2 t with hash := true } else s2 t

theorem parseHash_spec {t : SpecText} (hv : t.Valid) {a : Arg} (hf : t.hash = true → a.isNumeric = true) (tail : Str) :
    parseHash a (s2 t) (r2 t tail) = .ok (s3 t, r3 t tail) := by
  unfold r2 s3
  cases h : t.hash with
  | false =>
    have hok := peek_r3 hv tail
    simp only [Bool.false_eq_true, if_false, List.nil_append]
    unfold parseHash
    split
    · rename_i e; rw [e] at hok; simp only [peek] at hok; exact absurd hok (by decide)
    · rfl
  | true =>
    have h1 : a.isNumeric := hf h
    simp [parseHash, requireNumeric, h1, Except.map]

def s4 (t : SpecText) : Spec := if t.zero then { s3 t with align := .numeric, fill := '0' } else s3 t

theorem parseZero_spec {t : SpecText} (hv : t.Valid) {a : Arg} (hf : t.zero = true → a.isNumeric = true) (tail : Str) :
    parseZero a (s3 t) (r3 t tail) = .ok (s4 t, r4 t tail) := by
  unfold r3 s4
  cases h : t.zero with
  | false =>
    have hok := peek_r4 hv tail
    simp only [Bool.false_eq_true, if_false, List.nil_append]
    unfold parseZero
    split
    · rename_i e; rw [e] at hok; simp only [peek] at hok; exact absurd hok (by decide)
    · rfl
  | true =>
    have h1 : a.isNumeric := hf h
    simp [parseZero, requireNumeric, h1, Except.map]

theorem letter_not_digit {c : Char} (h : letter c = true) : isDigit c = false := by
  simp only [letter, isDigit, Char.le_def, Bool.or_eq_true, Bool.and_eq_true, decide_eq_true_eq, Bool.and_eq_false_iff,
    decide_eq_false_iff_not, UInt32.not_le] at h ⊢
  rcases h with h | h
  · right
    exact UInt32.lt_of_lt_of_le (by decide) h.1
  · right
    exact UInt32.lt_of_lt_of_le (by decide) h.1

theorem ok5_not_digit {c : Char} (h : ok5 c = true) : isDigit c = false := by
  simp only [ok5, ok6, Bool.or_eq_true, beq_iff_eq] at h
  rcases h with (rfl | h) | rfl
  · rfl
  · exact letter_not_digit h
  · rfl

def s5 (t : SpecText) : Spec :=
  match t.width with
  | none => s4 t
  | some w => { s4 t with width := w }

theorem parseWidth_spec {t : SpecText} (hv : t.Valid) (args : List Arg) (next : Next) (tail : Str) :
    parseWidth args next (s4 t) (r4 t tail) = .ok (s5 t, next, r5 t tail) := by
  unfold r4 s5
  have hok := peek_r5 hv tail
  cases h : t.width with
  | none =>
    simp only [List.nil_append]
    unfold parseWidth
    rw [if_neg (by rw [ok5_not_digit hok]; decide)]
    split
    · rename_i e; rw [e] at hok; simp only [peek] at hok; exact absurd hok (by decide)
    · rfl
  | some w =>
    simp only
    unfold parseWidth
    rw [if_pos (by rw [peek_append _ Nat.toDigits_ne_nil]; exact peek_toDigits w),
      parseNonneg_spec w (hv.width w h).2 _ (ok5_not_digit hok)]
    rfl

def s6 (t : SpecText) : Spec :=
  match t.precision with
  | none => s5 t
  | some p => { s5 t with precision := some p }

theorem parsePrecision_spec {t : SpecText} (hv : t.Valid) {a : Arg} (hf : t.precision ≠ none → a.isInteger = false)
    (args : List Arg) (next : Next) (tail : Str) : parsePrecision args a next (s5 t) (r5 t tail) = .ok (s6 t, next, r6 t tail) := by
  unfold r5 s6
  have hok := peek_r6 hv tail
  cases h : t.precision with
  | none =>
    simp only [List.nil_append]
    unfold parsePrecision
    split
    · rename_i e; rw [e] at hok; simp only [peek] at hok; exact absurd hok (by decide)
    · rfl
  | some p =>
    have hi := hf (by simp [h])
    simp only [List.cons_append]
    unfold parsePrecision
    simp only
    rw [if_pos (by rw [peek_append _ Nat.toDigits_ne_nil]; exact peek_toDigits p),
      parseNonneg_spec p (hv.precision p h) _ (ok5_not_digit (by simp [ok5, hok]))]
    simp [Except.map, bind, Except.bind, hi]

def s7 (t : SpecText) : Spec :=
  match t.type with
  | none => s6 t
  | some c => { s6 t with type := some c }

theorem parseType_spec {t : SpecText} (hv : t.Valid) (tail : Str) :
    parseType (s6 t) (r6 t tail) = (s7 t, '}' :: tail) := by
  unfold r6 s7
  cases h : t.type with
  | none => rfl
  | some c =>
    have hl := hv.type c h
    simp only [Option.toList_some, List.singleton_append]
    unfold parseType
    split
    · rename_i e; cases e
    · rename_i e
      simp only [List.cons.injEq] at e
      rw [e.1] at hl
      exact absurd hl (by decide)
    · rename_i e
      simp only [List.cons.injEq] at e
      rw [← e.1, ← e.2]

theorem s7_eq {t : SpecText} (hv : t.Valid) : s7 t = t.meaning := by
  obtain ⟨al, sg, ha, z, w, p, ty⟩ := t
  have hs : ∀ c, sg = some c → c = '+' ∨ c = '-' ∨ c = ' ' := hv.sign
  unfold s7 s6 s5 s4 s3 s2 s1 SpecText.meaning
  cases sg with
  | none => rcases al with _ | ⟨_ | f, al⟩ <;> cases ha <;> cases z <;> cases w <;> cases p <;> cases ty <;> rfl
  | some c =>
    rcases hs c rfl with rfl | rfl | rfl <;>
    rcases al with _ | ⟨_ | f, al⟩ <;> cases ha <;> cases z <;> cases w <;> cases p <;> cases ty <;> rfl

theorem parseSpec_spec {t : SpecText} (hv : t.Valid) {a : Arg} (hf : t.Fits a) (args : List Arg) (next : Next)
    (tail : Str) : parseSpec args a next (t.print ++ '}' :: tail) = .ok (t.meaning, next, '}' :: tail) := by
  rw [print_eq]
  unfold parseSpec
  rw [parseAlign_spec hv (fun h => hf.numeric (.inl h))]
  simp only [bind, Except.bind]
  rw [parseSign_spec hv (fun h => hf.numeric (.inr (.inl h))) hf.signed]
  simp only
  rw [parseHash_spec hv (fun h => hf.numeric (.inr (.inr (.inl h))))]
  simp only
  rw [parseZero_spec hv (fun h => hf.numeric (.inr (.inr (.inr h))))]
  simp only
  rw [parseWidth_spec hv]
  simp only
  rw [parsePrecision_spec hv hf.precision]
  simp only
  rw [parseType_spec hv, s7_eq hv]

theorem requireNumeric_error {a : Arg} (h : a.isNumeric = false) (c : Char) :
    ∃ m, requireNumeric a c = .error (.format m) := by
  unfold requireNumeric
  rw [if_neg (by rw [h]; decide)]
  exact ⟨_, rfl⟩

/-- A specification that does not suit the argument is an error. -/
theorem parseSpec_rejects {t : SpecText} (hv : t.Valid) {a : Arg} (hf : ¬ t.Fits a) (args : List Arg) (next : Next)
    (tail : Str) : ∃ m, parseSpec args a next (t.print ++ '}' :: tail) = .error (.format m) := by
  rw [print_eq]
  unfold parseSpec
  by_cases h1 : (∃ f, t.align = some (f, .numeric)) → a.isNumeric = true
  case neg =>
    simp only [Classical.not_imp] at h1
    obtain ⟨⟨f, h⟩, hn⟩ := h1
    obtain ⟨m, hm⟩ := requireNumeric_error (by simpa using hn) '='
    have : parseAlign a {} (r0 t tail) = .error (.format m) := by
      unfold r0
      rw [h]
      cases f with
      | none =>
        simp only [Option.toList_none, List.nil_append, List.singleton_append, alignChar]
        unfold parseAlign
        simp only [alignOf_none (peek_r1 hv tail), show alignOf '=' = some .numeric from rfl]
        simp only [afterAlign, if_true, hm]
      | some f =>
        obtain ⟨hf1, hf2, _⟩ := hv.fill f _ h
        simp only [Option.toList_some, List.cons_append, List.nil_append, alignChar]
        unfold parseAlign
        simp only [peek, alignOf]
        rw [if_neg hf2, if_neg hf1]
        simp only [afterAlign, if_true, hm]
    rw [this]
    exact ⟨m, rfl⟩
  rw [parseAlign_spec hv h1]
  simp only [bind, Except.bind]
  by_cases h2 : t.sign ≠ none → a.isNumeric = true ∧ (∀ n, a ≠ .uint n) ∧ ∀ n, a ≠ .ulong n
  case neg =>
    simp only [Classical.not_imp] at h2
    obtain ⟨hs, h2⟩ := h2
    obtain ⟨c, hc⟩ := Option.ne_none_iff_exists'.1 hs
    have he : ∃ m, checkSign a c = .error (.format m) := by
      unfold checkSign
      by_cases hn : a.isNumeric = true
      · have hu : ¬ ((∀ n, a ≠ .uint n) ∧ ∀ n, a ≠ .ulong n) := fun h => h2 ⟨hn, h⟩
        simp only [requireNumeric, hn, if_true]
        split
        · exact ⟨_, rfl⟩
        · exact ⟨_, rfl⟩
        · rename_i hu1 hu2
          exact absurd ⟨hu1, hu2⟩ hu
      · obtain ⟨m, hm⟩ := requireNumeric_error (by simpa using hn) c
        rw [hm]
        exact ⟨m, rfl⟩
    obtain ⟨m, hm⟩ := he
    have : parseSign a (s1 t) (r1 t tail) = .error (.format m) := by
      unfold r1
      rw [hc]
      rcases hv.sign c hc with rfl | rfl | rfl <;> simp [parseSign, hm, Except.map]
    rw [this]
    exact ⟨m, rfl⟩
  rw [parseSign_spec hv (fun h => (h2 h).1) (fun h => (h2 h).2)]
  simp only
  by_cases h3 : t.hash = true → a.isNumeric = true
  case neg =>
    simp only [Classical.not_imp] at h3
    obtain ⟨m, hm⟩ := requireNumeric_error (by simpa using h3.2) '#'
    have : parseHash a (s2 t) (r2 t tail) = .error (.format m) := by
      unfold r2
      rw [h3.1]
      simp [parseHash, hm, Except.map]
    rw [this]
    exact ⟨m, rfl⟩
  rw [parseHash_spec hv h3]
  simp only
  by_cases h4 : t.zero = true → a.isNumeric = true
  case neg =>
    simp only [Classical.not_imp] at h4
    obtain ⟨m, hm⟩ := requireNumeric_error (by simpa using h4.2) '0'
    have : parseZero a (s3 t) (r3 t tail) = .error (.format m) := by
      unfold r3
      rw [h4.1]
      simp [parseZero, hm, Except.map]
    rw [this]
    exact ⟨m, rfl⟩
  rw [parseZero_spec hv h4]
  simp only
  rw [parseWidth_spec hv]
  simp only
  by_cases h5 : t.precision ≠ none → a.isInteger = false
  case neg =>
    simp only [Classical.not_imp] at h5
    obtain ⟨p, hp⟩ := Option.ne_none_iff_exists'.1 h5.1
    have hi : a.isInteger = true := by simpa using h5.2
    have : ∃ m, parsePrecision args a next (s5 t) (r5 t tail) = .error (.format m) := by
      unfold r5
      rw [hp]
      simp only [List.cons_append]
      unfold parsePrecision
      simp only
      rw [if_pos (by rw [peek_append _ Nat.toDigits_ne_nil]; exact peek_toDigits p),
        parseNonneg_spec p (hv.precision p hp) _ (ok5_not_digit (by simp [ok5, peek_r6 hv tail]))]
      simp [Except.map, bind, Except.bind, hi]
    obtain ⟨m, hm⟩ := this
    rw [hm]
    exact ⟨m, rfl⟩
  exfalso
  apply hf
  refine ⟨?_, fun h => (h2 h).2, h5⟩
  rintro (h | h | h | h)
  · exact h1 h
  · exact (h2 h).1
  · exact h3 h
  · exact h4 h

/-! ## Fields and whole strings -/

/-- A field after its opening brace. -/
def fieldText (pos : Option Nat) (spec : Option SpecText) (tail : Str) : Str :=
  (match pos with
    | none => []
    | some i => Nat.toDigits 10 i)
  ++ ((match spec with
    | none => []
    | some t => ':' :: t.print) ++ '}' :: tail)

def specTail (spec : Option SpecText) (tail : Str) : Str :=
  (match spec with
    | none => []
    | some t => ':' :: t.print) ++ '}' :: tail

theorem peek_specTail (spec : Option SpecText) (tail : Str) :
    peek (specTail spec tail) = ':' ∨ peek (specTail spec tail) = '}' := by
  cases spec with
  | none => exact .inr rfl
  | some t => exact .inl rfl

theorem formatField_spec (fd : Spec → Nat → Except Err Str) (args : List Arg) (a : Arg) (next : Next)
    (spec : Option SpecText) (hv : ∀ t, spec = some t → t.Valid) (hf : ∀ t, spec = some t → t.Fits a) (tail : Str) :
    formatField fd args a next (specTail spec tail) =
      match writeArg fd (meaningOf spec) a with
      | .error e => .error e
      | .ok out => .ok (out, next, tail) := by
  unfold formatField
  have e : (if peek (specTail spec tail) = ':' then parseSpec args a next (specTail spec tail).tail
      else (Except.ok ({}, next, specTail spec tail) : Except Err (Spec × Next × Str)))
      = .ok (meaningOf spec, next, '}' :: tail) := by
    cases spec with
    | none => rfl
    | some t => exact parseSpec_spec (hv t rfl) (hf t rfl) args next tail
  rw [e]
  simp only
  rw [if_pos (show peek ('}' :: tail) = '}' from rfl)]
  cases writeArg fd (meaningOf spec) a <;> rfl

theorem digit_not_nameStart {c : Char} (h : isDigit c = true) : isNameStart c = false := by
  simp only [isDigit, isNameStart, Char.le_def, Bool.or_eq_false_iff, Bool.and_eq_true, decide_eq_true_eq,
    Bool.and_eq_false_iff, decide_eq_false_iff_not, UInt32.not_le, beq_eq_false_iff_ne] at h ⊢
  refine ⟨⟨.inl ?_, .inl ?_⟩, ?_⟩
  · exact UInt32.lt_of_le_of_lt h.2 (by decide)
  · exact UInt32.lt_of_le_of_lt h.2 (by decide)
  · rintro rfl
    exact absurd h.2 (by decide)

/-- An automatic field takes the next argument. -/
theorem parseArg_auto (args : List Arg) (i : Nat) (spec : Option SpecText) (tail : Str) :
    parseArg args (some i) (specTail spec tail) =
      match args[i]? with
      | none => .error (.format (ch! "argument index out of range"))
      | some a => .ok (a, some (i + 1), specTail spec tail) := by
  have hp := peek_specTail spec tail
  unfold parseArg
  have h1 : isNameStart (peek (specTail spec tail)) = false := by rcases hp with h | h <;> rw [h] <;> rfl
  have h2 : isDigit (peek (specTail spec tail)) = false := by rcases hp with h | h <;> rw [h] <;> rfl
  rw [if_neg (by rw [h1]; decide)]
  unfold parseArgIndex
  simp only
  rw [if_pos (by rw [h2]; decide)]
  unfold doGetArg
  cases args[i]? with
  | some a => rfl
  | none =>
    simp only
    rw [if_neg]
    rintro ⟨h3, h4⟩
    rcases hp with h | h
    · exact h4 h
    · exact h3 h

/-- A numbered field takes its argument. -/
theorem parseArg_manual (args : List Arg) (next : Next) (hn : next = some 0 ∨ next = none) (i : Nat) (hi : i < 2 ^ 31)
    (spec : Option SpecText) (tail : Str) :
    parseArg args next (Nat.toDigits 10 i ++ specTail spec tail) =
      match args[i]? with
      | none => .error (.format (ch! "argument index out of range"))
      | some a => .ok (a, none, specTail spec tail) := by
  have hp := peek_specTail spec tail
  have h2 : isDigit (peek (specTail spec tail)) = false := by rcases hp with h | h <;> rw [h] <;> rfl
  have h3 := peek_toDigits i
  unfold parseArg
  rw [peek_append _ Nat.toDigits_ne_nil, if_neg (by rw [digit_not_nameStart h3]; decide)]
  unfold parseArgIndex
  simp only
  rw [peek_append _ Nat.toDigits_ne_nil, if_neg (by rw [h3]; decide), parseNonneg_spec i hi _ h2]
  have key : (match doGetArg args i with
      | .ok a => (Except.ok (a, none, specTail spec tail) : Except Err (Arg × Next × Str))
      | .error e => .error (.format (if peek (specTail spec tail) ≠ '}' ∧ peek (specTail spec tail) ≠ ':'
          then ch! "invalid format string" else e)))
      = match args[i]? with
      | none => .error (.format (ch! "argument index out of range"))
      | some a => .ok (a, none, specTail spec tail) := by
    unfold doGetArg
    cases args[i]? with
    | some a => rfl
    | none =>
      simp only
      rw [if_neg]
      rintro ⟨h3, h4⟩
      rcases hp with h | h
      · exact h4 h
      · exact h3 h
  rcases hn with rfl | rfl
  · exact key
  · exact key

theorem map_map {ε α β γ : Type} (f : α → β) (g : β → γ) (x : Except ε α) : (x.map f).map g = x.map (g ∘ f) := by
  cases x <;> rfl

theorem formatLoop_text (fd : Spec → Nat → Except Err Str) (args : List Arg) (next : Next) (rest : Str) (R : Except Err Str)
    (h : ∀ fuel, rest.length ≤ fuel → formatLoop fd args fuel next rest = R) (s : Str) :
    ∀ fuel, (escapeText s ++ rest).length ≤ fuel →
      formatLoop fd args fuel next (escapeText s ++ rest) = R.map (s ++ ·) := by
  induction s with
  | nil =>
    intro fuel hf
    rw [show escapeText [] ++ rest = rest from rfl] at hf ⊢
    rw [h fuel hf]
    cases R <;> rfl
  | cons c s ih =>
    intro fuel hf
    have e : escapeText (c :: s) = (if c = '{' ∨ c = '}' then [c, c] else [c]) ++ escapeText s := by
      simp [escapeText]
    rw [e] at hf ⊢
    by_cases hc : c = '{' ∨ c = '}'
    · rw [if_pos hc] at hf ⊢
      simp only [List.cons_append, List.nil_append, List.length_cons] at hf ⊢
      obtain ⟨fuel, rfl⟩ : ∃ k, fuel = k + 1 := ⟨fuel - 1, by omega⟩
      rw [formatLoop, if_neg (by rcases hc with rfl | rfl <;> decide), if_pos (show peek (c :: _) = c from rfl), List.tail_cons, ih fuel (by omega), map_map]
      rfl
    · rw [if_neg hc] at hf ⊢
      simp only [List.cons_append, List.nil_append, List.length_cons] at hf ⊢
      obtain ⟨fuel, rfl⟩ : ∃ k, fuel = k + 1 := ⟨fuel - 1, by omega⟩
      rw [formatLoop, if_pos (by simpa only [not_or] using hc), ih fuel (by omega), map_map]
      rfl

/-- The opening brace of a field is not doubled. -/
theorem formatLoop_field (fd : Spec → Nat → Except Err Str) (args : List Arg) (fuel : Nat) (next : Next)
    (pos : Option Nat) (spec : Option SpecText) (tail : Str) :
    formatLoop fd args (fuel + 1) next ('{' :: fieldText pos spec tail)
      = match field fd args next (fieldText pos spec tail) with
        | .error e => .error e
        | .ok (out, next, s) => (formatLoop fd args fuel next s).map (out ++ ·) := by
  have hne : peek (fieldText pos spec tail) ≠ '{' := by
    have hp := peek_specTail spec tail
    have e : fieldText pos spec tail = (match pos with
      | none => []
      | some i => Nat.toDigits 10 i) ++ specTail spec tail := rfl
    rw [e]
    cases pos with
    | none =>
      simp only [List.nil_append]
      rcases hp with h | h <;> rw [h] <;> decide
    | some i =>
      simp only
      rw [peek_append _ Nat.toDigits_ne_nil]
      intro h
      have := peek_toDigits i
      rw [h] at this
      exact absurd this (by decide)
  rw [formatLoop, if_neg (by decide), if_neg hne, if_neg (by decide)]
  rfl

/-- `next_arg_index_` before the field that is the `i`-th. -/
def NextAt (manual : Bool) (i : Nat) (next : Next) : Prop :=
  if manual then next = some 0 ∨ next = none else next = some i

theorem formatLoop_spec (fd : Spec → Nat → Except Err Str) (args : List Arg) (manual : Bool) (ps : List Piece) :
    ∀ (i : Nat) (next : Next), WellFormed ps → Suits args i ps → Numbered manual ps → NextAt manual i next →
    ∀ fuel, (printAll ps).length ≤ fuel → formatLoop fd args fuel next (printAll ps) = expand fd args i ps := by
  induction ps with
  | nil =>
    intro i next _ _ _ _ fuel _
    simp [printAll, formatLoop, expand]
  | cons p ps ih =>
    intro i next hw hs hm hn fuel hf
    cases p with
    | text s =>
      rw [printAll, Piece.print] at hf ⊢
      rw [expand]
      exact formatLoop_text fd args next _ _ (fun k hk => ih i next hw.2 hs hm hn k hk) s fuel hf
    | field pos spec =>
      obtain ⟨hw1, hw2, hw3⟩ := hw
      obtain ⟨hs1, hs2⟩ := hs
      obtain ⟨hm1, hm2⟩ := hm
      have e : printAll (.field pos spec :: ps) = '{' :: fieldText pos spec (printAll ps) := by
        simp only [printAll, Piece.print, List.cons_append, List.append_assoc, List.nil_append]
        rfl
      have hlen : (printAll ps).length ≤ (fieldText pos spec (printAll ps)).length := by
        unfold fieldText
        simp only [List.length_append, List.length_cons]
        omega
      rw [e, List.length_cons] at hf
      obtain ⟨fuel, rfl⟩ : ∃ k, fuel = k + 1 := ⟨fuel - 1, by omega⟩
      rw [e, formatLoop_field, expand]
      unfold field
      have hparse : ∃ next', NextAt manual (i + 1) next' ∧ parseArg args next (fieldText pos spec (printAll ps)) =
          match args[pos.getD i]? with
          | none => .error (.format (ch! "argument index out of range"))
          | some a => .ok (a, next', specTail spec (printAll ps)) := by
        cases pos with
        | none =>
          have hman : manual = false := by simpa using hm1.symm
          subst hman
          have hnx : next = some i := hn
          subst hnx
          exact ⟨some (i + 1), rfl, parseArg_auto args i spec (printAll ps)⟩
        | some j =>
          have hman : manual = true := by simpa using hm1.symm
          subst hman
          exact ⟨none, .inr rfl, parseArg_manual args next hn j (hw1 j rfl) spec (printAll ps)⟩
      obtain ⟨next', hn', hp⟩ := hparse
      rw [hp]
      cases ha : args[pos.getD i]? with
      | none => rfl
      | some a =>
        simp only
        rw [formatField_spec fd args a next' spec hw2 (fun t ht => hs1 a t ha ht)]
        cases writeArg fd (meaningOf spec) a with
        | error x => rfl
        | ok out =>
          simp only
          rw [ih (i + 1) next' hw3 hs2 hm2 hn' fuel (by omega)]

/-- Printed format strings have no NUL. -/
theorem toDigits_no_nul (n : Nat) : '\x00' ∉ Nat.toDigits 10 n := by
  intro h
  exact absurd (toDigits_isDigit n _ h) (by decide)

theorem print_no_nul {t : SpecText} (hv : t.Valid) : '\x00' ∉ t.print := by
  intro h
  unfold SpecText.print at h
  simp only [List.mem_append, Option.mem_toList] at h
  rcases h with h | h | h | h | h | h | h
  · split at h
    · cases h
    · rename_i f al e
      rw [List.mem_append, Option.mem_toList] at h
      rcases h with h | h
      · have h' : f = some '\x00' := h
        subst h'
        exact (hv.fill _ al e).2.2 rfl
      · cases al <;> simp [alignChar] at h
  · rcases hv.sign _ h with h | h | h <;> exact absurd h (by decide)
  · split at h <;> simp at h
  · split at h <;> simp at h
  · split at h
    · cases h
    · exact toDigits_no_nul _ h
  · split at h
    · cases h
    · rw [List.mem_cons] at h
      rcases h with h | h
      · exact absurd h (by decide)
      · exact toDigits_no_nul _ h
  · exact absurd (hv.type _ h) (by decide)

theorem printAll_no_nul (ps : List Piece) (hw : WellFormed ps) : '\x00' ∉ printAll ps := by
  induction ps with
  | nil => simp [printAll]
  | cons p ps ih =>
    rw [printAll, List.mem_append, not_or]
    cases p with
    | text s =>
      refine ⟨?_, ih hw.2⟩
      have hs := hw.1
      simp only [Piece.print, escapeText, List.mem_flatMap, not_exists, not_and]
      intro c hc h
      split at h
      · simp at h; exact hs (h ▸ hc)
      · simp at h; exact hs (h ▸ hc)
    | field pos spec =>
      obtain ⟨hw1, hw2, hw3⟩ := hw
      refine ⟨?_, ih hw3⟩
      simp only [Piece.print, List.mem_cons, List.mem_append, not_or]
      refine ⟨by decide, ?_, ?_, by decide, by simp⟩
      · cases pos with
        | none => simp
        | some i => exact toDigits_no_nul i
      · cases spec with
        | none => simp
        | some t =>
          simp only [List.mem_cons, not_or]
          exact ⟨by decide, print_no_nul (hw2 t rfl)⟩

end Blackhole.Fmt
