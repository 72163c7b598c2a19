import Verif.Fmt.Props

/-! # C59 No format string crashes the formatter -/

namespace Blackhole.Fmt

/-- An argument as a caller can pass it: numbers fit their types, a text is not empty or is followed by a NUL, like the
text of a `std::string`. -/
def Arg.Valid : Arg → Prop
  | .int z => -2 ^ 31 ≤ z ∧ z < 2 ^ 31
  | .uint n => n < 2 ^ 32
  | .long z => -2 ^ 63 ≤ z ∧ z < 2 ^ 63
  | .ulong n => n < 2 ^ 64
  | .str s behind => s ≠ [] ∨ '\x00' ∈ behind
  | _ => True

/-- No undefined behaviour. -/
def Defined {α : Type} (r : Except Err α) : Prop := ∀ u, r ≠ .error (.ub u)

/-- No undefined behaviour, and what is left is not longer than `n`. -/
def Within {α : Type} (n : Nat) (rest : α → Str) (r : Except Err α) : Prop :=
  Defined r ∧ ∀ x, r = .ok x → (rest x).length ≤ n

theorem defined_ok {α : Type} (x : α) : Defined (.ok x : Except Err α) := by intro u h; cases h

theorem defined_format {α : Type} (m : Str) : Defined (.error (.format m) : Except Err α) := by
  intro u h; injection h with h; cases h

theorem within_ok {α : Type} (n : Nat) (rest : α → Str) (x : α) (h : (rest x).length ≤ n) : Within n rest (.ok x) :=
  ⟨defined_ok x, by intro y hy; cases hy; exact h⟩

theorem within_format {α : Type} (n : Nat) (rest : α → Str) (m : Str) : Within n rest (.error (.format m)) :=
  ⟨defined_format m, by intro y hy; cases hy⟩

theorem within_map {α β : Type} (n k : Nat) (ra : α → Str) (rb : β → Str) (r : Except Err α) (f : α → β)
    (h : Within n ra r) (hf : ∀ x, (ra x).length ≤ n → (rb (f x)).length ≤ k) : Within k rb (r.map f) := by
  cases r with
  | error e =>
    refine ⟨?_, by intro y hy; cases hy⟩
    intro u hu
    exact h.1 u (by simpa [Except.map] using hu)
  | ok x => exact within_ok _ _ _ (hf x (h.2 x rfl))

theorem within_bind {α β : Type} (n k : Nat) (ra : α → Str) (rb : β → Str) (r : Except Err α) (f : α → Except Err β)
    (h : Within n ra r) (hf : ∀ x, (ra x).length ≤ n → Within k rb (f x)) : Within k rb (r >>= f) := by
  cases r with
  | error e =>
    refine ⟨?_, by intro y hy; cases hy⟩
    intro u hu
    exact h.1 u (by simpa [bind, Except.bind] using hu)
  | ok x => exact hf x (h.2 x rfl)

theorem parseDigits_length (s : Str) : ∀ v, (parseDigits v s).2.length ≤ s.length := by
  induction s with
  | nil => intro v; simp [parseDigits]
  | cons c s ih =>
    intro v
    unfold parseDigits
    split
    · simp only
      split
      · simp
      · exact Nat.le_trans (ih _) (by simp)
    · simp

theorem parseNonneg_within (s : Str) : Within s.length (fun x => x.2) (parseNonneg s) := by
  unfold parseNonneg
  simp only
  split
  · exact within_format _ _ _
  · exact within_ok _ _ _ (parseDigits_length s 0)

theorem parseArgIndex_within (args : List Arg) (next : Next) (s : Str) :
    Within s.length (fun x => x.2.2) (parseArgIndex args next s) := by
  unfold parseArgIndex
  simp only
  split
  · split
    · split
      · exact within_ok _ _ _ (Nat.le_refl _)
      · exact within_format _ _ _
    · exact within_format _ _ _
  · have hn := parseNonneg_within s
    cases h : parseNonneg s with
    | error e =>
      rw [h] at hn
      refine ⟨?_, by intro y hy; cases hy⟩
      intro u hu
      exact hn.1 u (by simpa using hu)
    | ok x =>
      obtain ⟨i, t⟩ := x
      rw [h] at hn
      have ht : t.length ≤ s.length := hn.2 _ rfl
      simp only
      split
      · exact within_format _ _ _
      · split
        · exact within_ok _ _ _ ht
        · exact within_format _ _ _

theorem parseArg_within (args : List Arg) (next : Next) (s : Str) :
    Within s.length (fun x => x.2.2) (parseArg args next s) := by
  unfold parseArg
  split
  · split <;> exact within_format _ _ _
  · exact parseArgIndex_within args next s

theorem requireNumeric_defined (a : Arg) (c : Char) : Defined (requireNumeric a c) := by
  unfold requireNumeric
  split
  · exact defined_ok _
  · exact defined_format _

theorem checkSign_defined (a : Arg) (c : Char) : Defined (checkSign a c) := by
  unfold checkSign
  have := requireNumeric_defined a c
  cases h : requireNumeric a c with
  | error e => intro u hu; exact this u (by simpa [h] using hu)
  | ok x =>
    simp only
    split
    · exact defined_format _
    · exact defined_format _
    · exact defined_ok _

theorem within_of_defined {α β : Type} (k : Nat) (rb : β → Str) (r : Except Err α) (f : α → β)
    (h : Defined r) (hf : ∀ x, (rb (f x)).length ≤ k) : Within k rb (r.map f) :=
  within_map 0 k (fun _ => []) rb r f ⟨h, fun _ _ => Nat.le_refl _⟩ (fun x _ => hf x)

theorem afterAlign_within (a : Arg) (spec : Spec) (s : Str) : Within s.length (fun x => x.2) (afterAlign a spec s) := by
  unfold afterAlign
  split
  · have := requireNumeric_defined a '='
    cases h : requireNumeric a '=' with
    | error e =>
      refine ⟨?_, by intro y hy; cases hy⟩
      intro u hu
      exact this u (by simpa [h] using hu)
    | ok x => exact within_ok _ _ _ (Nat.le_refl _)
  · exact within_ok _ _ _ (Nat.le_refl _)

theorem within_mono {α : Type} {n k : Nat} {rest : α → Str} {r : Except Err α} (h : Within n rest r) (hk : n ≤ k) :
    Within k rest r := ⟨h.1, fun x hx => Nat.le_trans (h.2 x hx) hk⟩

theorem parseAlign_within (a : Arg) (spec : Spec) (s : Str) : Within s.length (fun x => x.2) (parseAlign a spec s) := by
  unfold parseAlign
  split
  · exact within_ok _ _ _ (Nat.le_refl _)
  · split
    · split
      · exact within_ok _ _ _ (Nat.le_refl _)
      · split
        · exact within_format _ _ _
        · exact within_mono (afterAlign_within a _ _) (by simp; omega)
    · split
      · exact within_mono (afterAlign_within a _ _) (by simp)
      · exact within_ok _ _ _ (Nat.le_refl _)

theorem parseSign_within (a : Arg) (spec : Spec) (s : Str) : Within s.length (fun x => x.2) (parseSign a spec s) := by
  unfold parseSign
  split
  · exact within_of_defined _ _ _ _ (checkSign_defined _ _) (by simp)
  · exact within_of_defined _ _ _ _ (checkSign_defined _ _) (by simp)
  · exact within_of_defined _ _ _ _ (checkSign_defined _ _) (by simp)
  · exact within_ok _ _ _ (Nat.le_refl _)

theorem parseHash_within (a : Arg) (spec : Spec) (s : Str) : Within s.length (fun x => x.2) (parseHash a spec s) := by
  unfold parseHash
  split
  · exact within_of_defined _ _ _ _ (requireNumeric_defined _ _) (by simp)
  · exact within_ok _ _ _ (Nat.le_refl _)

theorem parseZero_within (a : Arg) (spec : Spec) (s : Str) : Within s.length (fun x => x.2) (parseZero a spec s) := by
  unfold parseZero
  split
  · exact within_of_defined _ _ _ _ (requireNumeric_defined _ _) (by simp)
  · exact within_ok _ _ _ (Nat.le_refl _)

theorem argNumber_within (args : List Arg) (next : Next) (what s : Str) :
    Within s.length (fun x => x.2.2) (argNumber args next what s) := by
  unfold argNumber
  refine within_bind s.length _ (fun x => x.2.2) _ _ _ (parseArg_within args next s) ?_
  rintro ⟨a, next, t⟩ ht
  simp only at ht ⊢
  split
  · rename_i t
    have tail : ∀ v : Nat, Within s.length (fun x : Nat × Next × Str => x.2.2)
        (if v > 2 ^ 31 - 1 then .error (.format (ch! "number is too big")) else .ok (v, next, t)) := by
      intro v
      split
      · exact within_format _ _ _
      · exact within_ok _ _ _ (by simp only [List.length_cons] at ht ⊢; omega)
    simp only [bind, Except.bind]
    split
    · split
      · exact within_format _ _ _
      · exact tail _
    · split
      · exact within_format _ _ _
      · exact tail _
    · exact tail _
    · exact tail _
    · exact within_format _ _ _
  · exact within_format _ _ _

theorem parseWidth_within (args : List Arg) (next : Next) (spec : Spec) (s : Str) :
    Within s.length (fun x => x.2.2) (parseWidth args next spec s) := by
  unfold parseWidth
  split
  · exact within_map _ _ _ _ _ _ (parseNonneg_within s) (fun x hx => hx)
  · split
    · exact within_map _ _ _ _ _ _ (argNumber_within args next _ _) (fun x hx => Nat.le_trans hx (by simp))
    · exact within_ok _ _ _ (Nat.le_refl _)

theorem parsePrecision_within (args : List Arg) (a : Arg) (next : Next) (spec : Spec) (s : Str) :
    Within s.length (fun x => x.2.2) (parsePrecision args a next spec s) := by
  unfold parsePrecision
  split
  · rename_i s
    have first : Within s.length (fun x : Nat × Next × Str => x.2.2)
        (if isDigit (peek s) then (parseNonneg s).map fun (v, s) => (v, next, s)
          else
            match s with
            | '{' :: s => argNumber args next (ch! "precision") s
            | _ => .error (.format (ch! "missing precision specifier"))) := by
      split
      · exact within_map s.length _ (fun x : Nat × Str => x.2) _ _ _ (parseNonneg_within s) (fun x hx => hx)
      · split
        · exact within_mono (argNumber_within args next _ _) (by simp)
        · exact within_format _ _ _
    have := within_bind s.length ('.' :: s).length _ (fun x : Spec × Next × Str => x.2.2) _ (fun x : Nat × Next × Str =>
        if a.isInteger then .error (.format (ch! "precision not allowed in integer format specifier"))
        else .ok ({ spec with precision := some x.1 }, x.2.1, x.2.2)) first (by
      intro x hx
      split
      · exact within_format _ _ _
      · exact within_ok _ _ _ (by simp only [List.length_cons]; omega))
    revert this
    by_cases hi : a.isInteger = true <;> by_cases hd : isDigit (peek s) = true
    · simp only [hi, hd, if_true]; exact id
    · simp only [hi, hd, if_true, Bool.false_eq_true, if_false]
      split
      · exact id
      · intro _; split
        · rename_i h _; exact absurd rfl (h _)
        · exact within_format _ _ _
    · simp only [hi, hd, if_true, Bool.false_eq_true, if_false]; exact id
    · simp only [hi, hd, Bool.false_eq_true, if_false]
      split
      · exact id
      · intro _; split
        · rename_i h _; exact absurd rfl (h _)
        · exact within_format _ _ _
  · exact within_ok _ _ _ (Nat.le_refl _)

theorem parseType_length (spec : Spec) (s : Str) : (parseType spec s).2.length ≤ s.length := by
  unfold parseType
  split <;> simp

theorem parseSpec_within (args : List Arg) (a : Arg) (next : Next) (s : Str) :
    Within s.length (fun x => x.2.2) (parseSpec args a next s) := by
  unfold parseSpec
  refine within_bind _ _ _ _ _ _ (parseAlign_within a {} s) ?_
  rintro ⟨spec1, s1⟩ h1
  refine within_bind _ _ _ _ _ _ (parseSign_within a spec1 s1) ?_
  rintro ⟨spec2, s2⟩ h2
  refine within_bind _ _ _ _ _ _ (parseHash_within a spec2 s2) ?_
  rintro ⟨spec3, s3⟩ h3
  refine within_bind _ _ _ _ _ _ (parseZero_within a spec3 s3) ?_
  rintro ⟨spec4, s4⟩ h4
  refine within_bind _ _ _ _ _ _ (parseWidth_within args next spec4 s4) ?_
  rintro ⟨spec5, next5, s5⟩ h5
  refine within_bind _ _ _ _ _ _ (parsePrecision_within args a next5 spec5 s5) ?_
  rintro ⟨spec6, next6, s6⟩ h6
  have h7 := parseType_length spec6 s6
  simp only at h1 h2 h3 h4 h5 h6 ⊢
  exact within_ok _ _ _ (by simp only; omega)

theorem writeStr_defined (spec : Spec) (a : Option (Str × Str))
    (h : ∀ s b, a = some (s, b) → s ≠ [] ∨ '\x00' ∈ b) : Defined (writeStr spec a) := by
  have hgo : Defined (writeStr.go spec a) := by
    unfold writeStr.go
    split
    · exact defined_format _
    · rename_i s b
      have := h s b rfl
      cases s with
      | cons c s => simp only; exact defined_ok _
      | nil =>
        have hb : '\x00' ∈ b := by simpa using this
        cases b with
        | nil => simp at hb
        | cons c b => simp only; rw [if_pos hb]; exact defined_ok _
  unfold writeStr
  split
  · split
    · exact hgo
    · exact (by rw [unknownType_eq]; exact defined_format _)
  · exact hgo

theorem writeInt_defined (bits : Nat) (charFlag : Bool) (hb : bits = 32 ∨ bits = 64) (spec : Spec) (z : Int)
    (h1 : -2 ^ bits < z) (h2 : z < 2 ^ bits) : Defined (writeInt bits charFlag spec z) := by
  rw [writeInt_eq bits charFlag hb spec z h1 h2]
  split
  · exact defined_ok _
  · exact defined_format _

theorem writeArg_defined (fd : Spec → Nat → Except Err Str) (hfd : ∀ spec bits, Defined (fd spec bits)) (spec : Spec)
    (a : Arg) (ha : a.Valid) : Defined (writeArg fd spec a) := by
  have hchar (c : Char) : Defined (writeArg.char spec c) := by
    unfold writeArg.char
    split
    · exact defined_format _
    · exact defined_ok _
  cases a with
  | int z => exact writeInt_defined 32 false (.inl rfl) spec z (by have := ha.1; omega) (by have := ha.2; omega)
  | uint n => exact writeInt_defined 32 false (.inl rfl) spec n (by omega) (by have : n < 2 ^ 32 := ha; omega)
  | long z => exact writeInt_defined 64 false (.inr rfl) spec z (by have := ha.1; omega) (by have := ha.2; omega)
  | ulong n => exact writeInt_defined 64 false (.inr rfl) spec n (by omega) (by have : n < 2 ^ 64 := ha; omega)
  | bool b =>
    rw [writeArg]
    split
    · exact writeInt_defined 32 false (.inl rfl) spec _ (by cases b <;> decide) (by cases b <;> decide)
    · exact writeStr_defined _ _ (by rintro s t h; cases h; right; simp)
  | char c =>
    rw [writeArg]
    split
    · split
      · have : c.toNat < 2 ^ 32 := c.val.toNat_lt
        exact writeInt_defined 32 true (.inl rfl) spec _ (by simp only [charValue]; split <;> omega)
          (by simp only [charValue]; split <;> omega)
      · exact hchar c
    · exact hchar c
  | double bits => exact hfd spec bits
  | cstr s => exact writeStr_defined _ _ (by rintro x t h; cases h; right; simp)
  | str s b => exact writeStr_defined _ _ (by rintro x t h; cases h; exact ha)
  | strNull => exact writeStr_defined _ _ (by rintro s t h; cases h)

theorem parseArg_mem (args : List Arg) (next next' : Next) (s s' : Str) (a : Arg)
    (h : parseArg args next s = .ok (a, next', s')) : a ∈ args := by
  have hget : ∀ i b, doGetArg args i = .ok b → b ∈ args := by
    intro i b h
    unfold doGetArg at h
    split at h
    · rename_i x hx
      cases h
      exact List.mem_of_getElem? hx
    · cases h
  unfold parseArg at h
  split at h
  · split at h <;> cases h
  · unfold parseArgIndex at h
    simp only at h
    split at h
    · split at h
      · split at h
        · rename_i b hb
          cases h
          exact hget _ _ hb
        · cases h
      · cases h
    · split at h
      · cases h
      · split at h
        · cases h
        · split at h
          · rename_i b hb
            cases h
            exact hget _ _ hb
          · cases h

theorem field_within (fd : Spec → Nat → Except Err Str) (hfd : ∀ spec bits, Defined (fd spec bits)) (args : List Arg)
    (ha : ∀ a ∈ args, a.Valid) (next : Next) (s : Str) : Within s.length (fun x => x.2.2) (field fd args next s) := by
  unfold field
  have hp := parseArg_within args next s
  cases h : parseArg args next s with
  | error e =>
    rw [h] at hp
    refine ⟨?_, by intro y hy; cases hy⟩
    intro u hu
    exact hp.1 u (by simpa using hu)
  | ok x =>
    obtain ⟨a, next1, t⟩ := x
    rw [h] at hp
    have ht : t.length ≤ s.length := hp.2 _ rfl
    have hv := ha a (parseArg_mem args next next1 s t a h)
    simp only
    unfold formatField
    have hs : Within t.length (fun x => x.2.2)
        (if peek t = ':' then parseSpec args a next1 t.tail else .ok ({}, next1, t)) := by
      split
      · exact within_mono (parseSpec_within args a next1 t.tail) (by simp)
      · exact within_ok _ _ _ (Nat.le_refl _)
    cases hspec : (if peek t = ':' then parseSpec args a next1 t.tail else .ok ({}, next1, t)) with
    | error e =>
      rw [hspec] at hs
      refine ⟨?_, by intro y hy; cases hy⟩
      intro u hu
      exact hs.1 u (by simpa using hu)
    | ok x =>
      obtain ⟨spec, next2, t2⟩ := x
      rw [hspec] at hs
      have ht2 : t2.length ≤ t.length := hs.2 _ rfl
      simp only
      split
      · have hw := writeArg_defined fd hfd spec a hv
        cases hwr : writeArg fd spec a with
        | error e =>
          refine ⟨?_, by intro y hy; cases hy⟩
          intro u hu
          exact hw u (by simpa [hwr] using hu)
        | ok out => exact within_ok _ _ _ (by simp; omega)
      · exact within_format _ _ _

theorem formatLoop_defined (fd : Spec → Nat → Except Err Str) (hfd : ∀ spec bits, Defined (fd spec bits))
    (args : List Arg) (ha : ∀ a ∈ args, a.Valid) (fuel : Nat) :
    ∀ (next : Next) (s : Str), s.length ≤ fuel → Defined (formatLoop fd args fuel next s) := by
  have hmap : ∀ (r : Except Err Str) (f : Str → Str), Defined r → Defined (r.map f) := by
    intro r f h
    cases r with
    | error e => intro u hu; exact h u (by simpa [Except.map] using hu)
    | ok x => exact defined_ok _
  induction fuel with
  | zero =>
    intro next s hs
    cases s with
    | nil => exact defined_ok _
    | cons c s => simp at hs
  | succ fuel ih =>
    intro next s hs
    cases s with
    | nil => exact defined_ok _
    | cons c s =>
      simp only [List.length_cons] at hs
      unfold formatLoop
      split
      · exact hmap _ _ (ih _ _ (by omega))
      · split
        · exact hmap _ _ (ih _ _ (by simp; omega))
        · split
          · exact defined_format _
          · have hf := field_within fd hfd args ha next s
            cases h : field fd args next s with
            | error e =>
              intro u hu
              exact hf.1 u (by simpa [h] using hu)
            | ok x =>
              obtain ⟨out, next1, t⟩ := x
              have ht : t.length ≤ s.length := hf.2 _ h
              exact hmap _ _ (ih _ _ (by omega))

/-- For every format string whatsoever and all arguments, formatting ends with a text or with a format error: it never
reads or writes outside of its buffers, and it ends. -/
theorem C59_any_format_string (fd : Spec → Nat → Except Err Str) (hfd : ∀ spec bits u, fd spec bits ≠ .error (.ub u))
    (pattern : Str) (args : List Arg) (ha : ∀ a ∈ args, a.Valid) :
    (∃ text, format fd pattern args = .ok text) ∨ ∃ msg, format fd pattern args = .error (.format msg) := by
  have := formatLoop_defined fd hfd args ha (Config.cstr pattern).length (some 0) (Config.cstr pattern) (Nat.le_refl _)
  unfold format
  cases h : formatLoop fd args (Config.cstr pattern).length (some 0) (Config.cstr pattern) with
  | ok text => exact .inl ⟨text, rfl⟩
  | error e =>
    cases e with
    | format m => exact .inr ⟨m, rfl⟩
    | ub u => exact absurd h (this u)

/-- Values of every kind. -/
private def someArgs : List Arg :=
  [.int (-2147483648), .uint 7, .long (-1), .ulong 0, .bool true, .char 'c', .double 0, .cstr [], .str [] ['\x00'],
    .str ['a'] [], .strNull]

example : (∀ a ∈ someArgs, a.Valid)
    ∧ (∃ m, format (fun _ _ => .ok []) (ch! "{:{}}{0:{:.{{}") someArgs = .error (.format m))
    ∧ (∃ m, format (fun _ _ => .ok []) (ch! "{:>5}{:=^{}}}") someArgs = .error (.format m)) := by
  refine ⟨?_, ⟨_, rfl⟩, ⟨_, rfl⟩⟩
  intro a h
  simp only [someArgs, List.mem_cons, List.not_mem_nil, or_false] at h
  rcases h with rfl | rfl | rfl | rfl | rfl | rfl | rfl | rfl | rfl | rfl | rfl <;> simp [Arg.Valid]

/-- The assumption on texts is needed: an empty view at the end of a buffer without a NUL is read beyond it. -/
theorem C59_needs_terminated (fd : Spec → Nat → Except Err Str) :
    format fd (ch! "{}") [.str [] []] = .error (.ub .outOfBounds) := rfl

end Blackhole.Fmt
