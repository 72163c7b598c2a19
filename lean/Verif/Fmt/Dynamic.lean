import Verif.Fmt.Props

/-! # Widths and precisions that are given by arguments

`{:{}}` and `{:.{}}` take the width and the precision from the arguments of the call. The specification of format
strings in `Spec.lean` is extended with such numbers here. -/

namespace Blackhole.Fmt

/-! ## Specification -/

/-- A number in a specification: written out, or a nested field with an optional position. -/
inductive Num where
  | lit (n : Nat)
  | arg (pos : Option Nat)

def Num.print : Num → Str
  | .lit n => Nat.toDigits 10 n
  | .arg none => ch! "{}"
  | .arg (some i) => '{' :: (Nat.toDigits 10 i ++ ['}'])

/-- `[[fill]align][sign][#][0][width][.precision][type]`, with numbers or nested fields. -/
structure DynText where
  align : Option (Option Char × Align) := none
  sign : Option Char := none
  hash : Bool := false
  zero : Bool := false
  width : Option Num := none
  precision : Option Num := none
  type : Option Char := none

/-- The same specification with numbers written out. -/
def DynText.with (d : DynText) (w p : Option Nat) : SpecText where
  align := d.align
  sign := d.sign
  hash := d.hash
  zero := d.zero
  width := w
  precision := p
  type := d.type

def DynText.print (d : DynText) : Str :=
  (match d.align with
    | none => []
    | some (f, al) => f.toList ++ [alignChar al])
  ++ (d.sign.toList
  ++ ((if d.hash then ['#'] else [])
  ++ ((if d.zero then ['0'] else [])
  ++ ((match d.width with
    | none => []
    | some w => w.print)
  ++ ((match d.precision with
    | none => []
    | some p => '.' :: p.print)
  ++ d.type.toList)))))

/-- The texts the documentation allows. -/
structure DynText.Valid (d : DynText) : Prop where
  align : ∀ f al, d.align = some (f, al) → al ≠ .default
  fill : ∀ f al, d.align = some (some f, al) → f ≠ '{' ∧ f ≠ '}' ∧ f ≠ '\x00'
  sign : ∀ c, d.sign = some c → c = '+' ∨ c = '-' ∨ c = ' '
  width : ∀ w, d.width = some (.lit w) → 0 < w ∧ w < 2 ^ 31
  widthAt : ∀ i, d.width = some (.arg (some i)) → i < 2 ^ 31
  precision : ∀ p, d.precision = some (.lit p) → p < 2 ^ 31
  precisionAt : ∀ i, d.precision = some (.arg (some i)) → i < 2 ^ 31
  type : ∀ c, d.type = some c → letter c
  nonempty : d.print ≠ []

/-- Whether an argument takes a specification does not depend on the numbers in it. -/
def DynText.Fits (d : DynText) (a : Arg) : Prop := (d.with (d.width.map fun _ => 1) (d.precision.map fun _ => 1)).Fits a

/-- An integer as a width or a precision. -/
def asNumber (what : Str) (z : Int) : Except Str Nat :=
  if z < 0 then .error (ch! "negative " ++ what)
  else if 2 ^ 31 ≤ z then .error (ch! "number is too big")
  else .ok z.toNat

/-- An argument, which may be missing, as a width or a precision. -/
def argAsNumber (what : Str) : Option Arg → Except Str Nat
  | none => .error (ch! "argument index out of range")
  | some (.int z) => asNumber what z
  | some (.long z) => asNumber what z
  | some (.uint n) => asNumber what n
  | some (.ulong n) => asNumber what n
  | some _ => .error (what ++ ch! " is not integer")

/-- The value of a number in a specification, where the next argument is the `i`-th. -/
def Num.value (args : List Arg) (what : Str) (i : Nat) : Num → Except Str Nat
  | .lit n => .ok n
  | .arg pos => argAsNumber what args[pos.getD i]?

/-- How many arguments it takes. -/
def Num.takes : Num → Nat
  | .lit _ => 0
  | .arg _ => 1

def optValue (args : List Arg) (what : Str) (i : Nat) : Option Num → Except Str (Option Nat)
  | none => .ok none
  | some n => (n.value args what i).map some

def optTakes : Option Num → Nat
  | none => 0
  | some n => n.takes

def DynText.takes (d : DynText) : Nat := optTakes d.width + optTakes d.precision

/-- The specification that the arguments make of a text: the width is taken before the precision. -/
def DynText.resolve (args : List Arg) (i : Nat) (d : DynText) : Except Str SpecText :=
  match optValue args (ch! "width") i d.width with
  | .error m => .error m
  | .ok w =>
    match optValue args (ch! "precision") (i + optTakes d.width) d.precision with
    | .error m => .error m
    | .ok p => .ok (d.with w p)

/-- A piece of a format string whose specifications may have nested fields. -/
inductive DynPiece where
  | text (s : Str)
  | field (pos : Option Nat) (spec : DynText)

def DynPiece.print : DynPiece → Str
  | .text s => escapeText s
  | .field pos d => '{' :: ((match pos with
      | none => []
      | some i => Nat.toDigits 10 i) ++ (':' :: (d.print ++ ['}'])))

def printDyn : List DynPiece → Str
  | [] => []
  | p :: ps => p.print ++ printDyn ps

/-- The expected output: every field takes its argument and then those of its width and its precision. -/
def expandDyn (fd : Spec → Nat → Except Err Str) (args : List Arg) : (i : Nat) → List DynPiece → Except Err Str
  | _, [] => .ok []
  | i, .text s :: ps => (expandDyn fd args i ps).map (s ++ ·)
  | i, .field pos d :: ps =>
    match args[pos.getD i]? with
    | none => .error (.format (ch! "argument index out of range"))
    | some a =>
      match d.resolve args (i + 1) with
      | .error m => .error (.format m)
      | .ok t =>
        match writeArg fd t.meaning a with
        | .error e => .error e
        | .ok out => (expandDyn fd args (i + 1 + d.takes) ps).map (out ++ ·)

def WellFormedDyn : List DynPiece → Prop
  | [] => True
  | .text s :: ps => '\x00' ∉ s ∧ WellFormedDyn ps
  | .field pos d :: ps => (∀ i, pos = some i → i < 2 ^ 31) ∧ d.Valid ∧ WellFormedDyn ps

def SuitsDyn (args : List Arg) : Nat → List DynPiece → Prop
  | _, [] => True
  | i, .text _ :: ps => SuitsDyn args i ps
  | i, .field pos d :: ps => (∀ a, args[pos.getD i]? = some a → d.Fits a) ∧ SuitsDyn args (i + 1 + d.takes) ps

def Num.Numbered (manual : Bool) : Option Num → Prop
  | some (.arg pos) => pos.isSome = manual
  | _ => True

/-- Fields and nested fields are numbered throughout, or nowhere. -/
def NumberedDyn (manual : Bool) : List DynPiece → Prop
  | [] => True
  | .text _ :: ps => NumberedDyn manual ps
  | .field pos d :: ps => pos.isSome = manual ∧ Num.Numbered manual d.width ∧ Num.Numbered manual d.precision
      ∧ NumberedDyn manual ps

/-! ## Lemmas -/

/-- What may follow the parts before the width. -/
structure Follows (d : DynText) (k : Str) : Prop where
  ne : k ≠ []
  first : alignOf (peek k) = none
  second : d.align = none → d.sign = none → d.hash = false → d.zero = false → alignOf (peek k.tail) = none
  sign : peek k ≠ '+' ∧ peek k ≠ '-' ∧ peek k ≠ ' '
  hash : peek k ≠ '#'
  zero : peek k ≠ '0'

def DynText.head (d : DynText) : SpecText := d.with none none

/-- The text before the width, followed by `k`. -/
def q3 (d : DynText) (k : Str) : Str := (if d.zero then ['0'] else []) ++ k
def q2 (d : DynText) (k : Str) : Str := (if d.hash then ['#'] else []) ++ q3 d k
def q1 (d : DynText) (k : Str) : Str := d.sign.toList ++ q2 d k
def q0 (d : DynText) (k : Str) : Str :=
  (match d.align with
    | none => []
    | some (f, al) => f.toList ++ [alignChar al]) ++ q1 d k

theorem peek_cons (c : Char) (s : Str) : peek (c :: s) = c := rfl

theorem alignOf_q {d : DynText} (hv : d.Valid) {k : Str} (hk : Follows d k) :
    alignOf (peek (q1 d k)) = none ∧ (d.align = none → alignOf (peek (q1 d k).tail) = none) := by
  have h1 := hk.first
  have h2 := hk.second
  unfold q1 q2 q3
  have hs := hv.sign
  have c1 : alignOf '+' = none := rfl
  have c2 : alignOf '-' = none := rfl
  have c3 : alignOf ' ' = none := rfl
  have c4 : alignOf '#' = none := rfl
  have c5 : alignOf '0' = none := rfl
  cases hsg : d.sign with
  | none =>
    cases hh : d.hash <;> cases hz : d.zero <;>
      simp only [Option.toList_none, List.nil_append, List.cons_append, Bool.false_eq_true, if_false, if_true, peek_cons,
        List.tail_cons, h1, c4, c5, implies_true, and_self, true_and]
    intro h
    exact h2 h hsg hh hz
  | some c =>
    rcases hs c hsg with rfl | rfl | rfl <;> cases d.hash <;> cases d.zero <;>
      simp only [Option.toList_some, List.nil_append, List.cons_append, Bool.false_eq_true, if_false, if_true, peek_cons,
        List.tail_cons, h1, c1, c2, c3, c4, c5, implies_true, and_self]

theorem q1_ne {d : DynText} {k : Str} (hk : Follows d k) : q1 d k ≠ [] := by
  have := hk.ne
  unfold q1 q2 q3
  simp [this]

theorem parseAlign_dyn {d : DynText} (hv : d.Valid) {a : Arg}
    (hf : (∃ f, d.align = some (f, .numeric)) → a.isNumeric = true) {k : Str} (hk : Follows d k) :
    parseAlign a {} (q0 d k) = .ok (s1 d.head, q1 d k) := by
  obtain ⟨ha1, ha2⟩ := alignOf_q hv hk
  cases h : d.align with
  | none =>
    have h0 : q0 d k = q1 d k := by simp [q0, h]
    rw [h0]
    have e : s1 d.head = {} := by
      unfold s1
      rw [show d.head.align = none from h]
    rw [e]
    obtain ⟨c, cs, hcs⟩ := List.exists_cons_of_ne_nil (q1_ne (d := d) hk)
    rw [hcs] at ha1 ha2 ⊢
    unfold parseAlign
    have ha2 := ha2 h
    simp only [List.tail_cons] at ha2
    simp only [peek] at ha1
    simp only [ha1, ha2]
  | some x =>
    obtain ⟨f, al⟩ := x
    have hal := hv.align f al h
    have after (sp : Spec) (hsp : sp.align = al) : afterAlign a sp (q1 d k) = .ok (sp, q1 d k) := by
      unfold afterAlign
      split
      · rename_i hn
        rw [hsp] at hn
        subst hn
        have := hf ⟨f, h⟩
        simp [requireNumeric, this]
      · rfl
    unfold s1 q0
    rw [show d.head.align = some (f, al) from h, h]
    cases f with
    | none =>
      simp only [Option.toList_none, List.nil_append, List.singleton_append]
      unfold parseAlign
      simp only [ha1, alignOf_alignChar hal]
      exact after _ rfl
    | some f =>
      obtain ⟨hf1, hf2, _⟩ := hv.fill f al h
      simp only [Option.toList_some, List.cons_append, List.nil_append]
      unfold parseAlign
      simp only [peek, alignOf_alignChar hal]
      rw [if_neg hf2, if_neg hf1]
      simp only [List.drop_succ_cons, List.drop_zero]
      exact after _ rfl

theorem peek_q2 {d : DynText} {k : Str} (hk : Follows d k) : peek (q2 d k) ≠ '+' ∧ peek (q2 d k) ≠ '-' ∧ peek (q2 d k) ≠ ' ' := by
  have := hk.sign
  unfold q2 q3
  cases d.hash <;> cases d.zero <;> simp [this, peek_cons]

theorem peek_q3 {d : DynText} {k : Str} (hk : Follows d k) : peek (q3 d k) ≠ '#' := by
  have := hk.hash
  unfold q3
  cases d.zero <;> simp [this, peek_cons]

theorem parseSign_dyn {d : DynText} (hv : d.Valid) {a : Arg} (hf : d.sign ≠ none → a.isNumeric = true)
    (hs : d.sign ≠ none → (∀ n, a ≠ .uint n) ∧ ∀ n, a ≠ .ulong n) {k : Str} (hk : Follows d k) :
    parseSign a (s1 d.head) (q1 d k) = .ok (s2 d.head, q2 d k) := by
  unfold q1
  cases h : d.sign with
  | none =>
    obtain ⟨h1, h2, h3⟩ := peek_q2 (d := d) hk
    simp only [Option.toList_none, List.nil_append]
    have e2 : s2 d.head = s1 d.head := by
      unfold s2
      rw [show d.head.sign = none from h]
    rw [e2]
    unfold parseSign
    split
    · rename_i e; rw [e] at h1; exact absurd rfl h1
    · rename_i e; rw [e] at h2; exact absurd rfl h2
    · rename_i e; rw [e] at h3; exact absurd rfl h3
    · rfl
  | some c =>
    have h1 : a.isNumeric := hf (by simp [h])
    have h2 := hs (by simp [h])
    have h' : d.head.sign = some c := h
    rcases hv.sign c h with rfl | rfl | rfl <;>
      simp [parseSign, s2, h', checkSign_ok _ h1 h2, Except.map]

theorem parseHash_dyn {d : DynText} {a : Arg} (hf : d.hash = true → a.isNumeric = true) {k : Str} (hk : Follows d k) :
    parseHash a (s2 d.head) (q2 d k) = .ok (s3 d.head, q3 d k) := by
  unfold q2 s3
  rw [show d.head.hash = d.hash from rfl]
  cases h : d.hash with
  | false =>
    have hp := peek_q3 (d := d) hk
    simp only [Bool.false_eq_true, if_false, List.nil_append]
    unfold parseHash
    split
    · rename_i e; rw [e] at hp; exact absurd rfl hp
    · rfl
  | true =>
    have h1 : a.isNumeric := hf h
    simp [parseHash, requireNumeric, h1, Except.map]

theorem parseZero_dyn {d : DynText} {a : Arg} (hf : d.zero = true → a.isNumeric = true) {k : Str} (hk : Follows d k) :
    parseZero a (s3 d.head) (q3 d k) = .ok (s4 d.head, k) := by
  unfold q3 s4
  rw [show d.head.zero = d.zero from rfl]
  cases h : d.zero with
  | false =>
    have hp := hk.zero
    simp only [Bool.false_eq_true, if_false, List.nil_append]
    unfold parseZero
    split
    · exact absurd rfl hp
    · rfl
  | true =>
    have h1 : a.isNumeric := hf h
    simp [parseZero, requireNumeric, h1, Except.map]

/-- A nested field takes its argument. -/
theorem parseArg_nested (args : List Arg) (manual : Bool) (i : Nat) (next : Next) (hn : NextAt manual i next)
    (pos : Option Nat) (hm : pos.isSome = manual) (hp : ∀ j, pos = some j → j < 2 ^ 31) (tail : Str) :
    ∃ next', NextAt manual (i + 1) next' ∧
      parseArg args next ((match pos with
        | none => []
        | some j => Nat.toDigits 10 j) ++ '}' :: tail)
      = match args[pos.getD i]? with
        | none => .error (.format (ch! "argument index out of range"))
        | some a => .ok (a, next', '}' :: tail) := by
  cases pos with
  | none =>
    have hman : manual = false := by simpa using hm.symm
    subst hman
    have hnx : next = some i := hn
    subst hnx
    exact ⟨some (i + 1), rfl, parseArg_auto args i none tail⟩
  | some j =>
    have hman : manual = true := by simpa using hm.symm
    subst hman
    exact ⟨none, .inr rfl, parseArg_manual args next hn j (hp j rfl) none tail⟩

theorem argNumber_spec (args : List Arg) (manual : Bool) (i : Nat) (next : Next) (hn : NextAt manual i next) (what : Str)
    (pos : Option Nat) (hm : pos.isSome = manual) (hp : ∀ j, pos = some j → j < 2 ^ 31) (tail : Str) :
    ∃ next', NextAt manual (i + 1) next' ∧
      argNumber args next what ((match pos with
        | none => []
        | some j => Nat.toDigits 10 j) ++ '}' :: tail)
      = match Num.value args what i (.arg pos) with
        | .error m => .error (.format m)
        | .ok n => .ok (n, next', tail) := by
  obtain ⟨next', hn', h⟩ := parseArg_nested args manual i next hn pos hm hp tail
  refine ⟨next', hn', ?_⟩
  unfold argNumber
  rw [h]
  simp only [Num.value]
  generalize args[pos.getD i]? = x
  cases x with
  | none => rfl
  | some a =>
    simp only [bind, Except.bind]
    cases a with
    | int z | long z =>
      simp only [argAsNumber, asNumber]
      by_cases hz : z < 0
      · rw [if_pos hz, if_pos hz]
      · rw [if_neg hz, if_neg hz]
        by_cases hb : (2 ^ 31 : Int) ≤ z
        · rw [if_pos (by omega), if_pos hb]
        · rw [if_neg (by omega), if_neg hb]
    | uint n | ulong n =>
      simp only [argAsNumber, asNumber]
      rw [if_neg (by omega : ¬ (n : Int) < 0)]
      by_cases hb : (2 ^ 31 : Int) ≤ (n : Int)
      · rw [if_pos (by omega), if_pos hb]
      · rw [if_neg (by omega), if_neg hb]
        simp
    | _ => rfl

/-- What follows the precision. -/
def k6 (d : DynText) (tail : Str) : Str := d.type.toList ++ '}' :: tail
def k5 (d : DynText) (tail : Str) : Str :=
  (match d.precision with
    | none => []
    | some p => '.' :: p.print) ++ k6 d tail
def k4 (d : DynText) (tail : Str) : Str :=
  (match d.width with
    | none => []
    | some w => w.print) ++ k5 d tail

theorem dynPrint_eq (d : DynText) (tail : Str) : d.print ++ '}' :: tail = q0 d (k4 d tail) := by
  unfold DynText.print q0 q1 q2 q3 k4 k5 k6
  simp only [List.append_assoc]

theorem peek_k6 {d : DynText} (hv : d.Valid) (tail : Str) : ok6 (peek (k6 d tail)) = true := by
  unfold k6
  cases h : d.type with
  | none => rfl
  | some c =>
    have := hv.type c h
    simp [peek, ok6, this]

theorem peek_k5 {d : DynText} (hv : d.Valid) (tail : Str) : ok5 (peek (k5 d tail)) = true := by
  unfold k5
  cases h : d.precision with
  | none => simp [ok5, peek_k6 hv tail]
  | some p => rfl

/-- The specification, given that it is followed by what may follow. -/
theorem parseSpec_head {d : DynText} (hv : d.Valid) {a : Arg} (hf : d.Fits a) (args : List Arg) (next : Next)
    (tail : Str) (hk : Follows d (k4 d tail)) :
    parseSpec args a next (d.print ++ '}' :: tail) =
      match parseWidth args next (s4 d.head) (k4 d tail) with
      | .error e => .error e
      | .ok (spec, next, s) =>
        match parsePrecision args a next spec s with
        | .error e => .error e
        | .ok (spec, next, s) => .ok ((parseType spec s).1, next, (parseType spec s).2) := by
  rw [dynPrint_eq]
  unfold parseSpec
  rw [parseAlign_dyn hv (fun h => hf.numeric (.inl h)) hk]
  simp only [bind, Except.bind]
  rw [parseSign_dyn hv (fun h => hf.numeric (.inr (.inl h))) hf.signed hk]
  simp only
  rw [parseHash_dyn (fun h => hf.numeric (.inr (.inr (.inl h)))) hk]
  simp only
  rw [parseZero_dyn (fun h => hf.numeric (.inr (.inr (.inr h)))) hk]
  simp only
  cases parseWidth args next (s4 d.head) (k4 d tail) with
  | error e => rfl
  | ok x =>
    simp only
    cases parsePrecision args a x.2.1 x.1 x.2.2 <;> rfl

theorem align_none {c : Char} (h : ok1 c = true ∨ c = '{') : alignOf c = none := by
  rcases h with h | rfl
  · exact alignOf_none h
  · rfl

theorem digit_ok1 {c : Char} (h : isDigit c = true) : ok1 c = true := by
  by_cases hz : c = '0'
  · subst hz; rfl
  · simp [ok1, ok2, ok3, ok4, h, hz]

theorem ok5_ok1 {c : Char} (h : ok5 c = true) : ok1 c = true := by
  simp [ok1, ok2, ok3, ok4, h]

theorem peek_print (n : Num) (rest : Str) : isDigit (peek (n.print ++ rest)) = true ∨ peek (n.print ++ rest) = '{' := by
  cases n with
  | lit n =>
    left
    rw [Num.print, peek_append _ Nat.toDigits_ne_nil]
    exact peek_toDigits n
  | arg pos =>
    right
    cases pos <;> rfl

theorem follows_k4 {d : DynText} (hv : d.Valid) (tail : Str) : Follows d (k4 d tail) := by
  have h5 := peek_k5 hv tail
  have h6 := peek_k6 hv tail
  cases hw : d.width with
  | none =>
    have e : k4 d tail = k5 d tail := by simp [k4, hw]
    rw [e]
    refine ⟨?_, alignOf_none (ok5_ok1 h5), ?_, ⟨ok_cases h5 rfl, ok_cases h5 rfl, ok_cases h5 rfl⟩, ok_cases h5 rfl,
      ok_cases h5 rfl⟩
    · unfold k5 k6
      simp
    · intro h1 h2 h3 h4
      cases hp : d.precision with
      | some p =>
        have e : (k5 d tail).tail = p.print ++ k6 d tail := by simp [k5, hp]
        rw [e]
        rcases peek_print p (k6 d tail) with h | h
        · exact align_none (.inl (digit_ok1 h))
        · exact align_none (.inr h)
      | none =>
        cases ht : d.type with
        | some c =>
          have e : (k5 d tail).tail = '}' :: tail := by simp [k5, k6, hp, ht]
          rw [e]
          rfl
        | none =>
          refine absurd ?_ hv.nonempty
          simp [DynText.print, h1, h2, h3, h4, hw, hp, ht]
  | some n =>
    have e : k4 d tail = n.print ++ k5 d tail := by simp [k4, hw]
    rw [e]
    cases n with
    | lit w =>
      have hd := peek_toDigits w
      have hz := peek_toDigits_ne_zero w (hv.width w hw).1
      have hp : peek (Num.print (.lit w) ++ k5 d tail) = peek (Nat.toDigits 10 w) := by
        rw [Num.print, peek_append _ Nat.toDigits_ne_nil]
      refine ⟨by simp [Num.print, Nat.toDigits_ne_nil], ?_, ?_, ?_, ?_, ?_⟩
      · rw [hp]
        exact alignOf_none (digit_ok1 hd)
      · intro _ _ _ _
        obtain ⟨c, cs, hcs⟩ := List.exists_cons_of_ne_nil (Nat.toDigits_ne_nil (n := w) (b := 10))
        rw [Num.print, hcs, List.cons_append, List.tail_cons]
        cases cs with
        | nil => exact alignOf_none (ok5_ok1 h5)
        | cons c' cs =>
          have := toDigits_isDigit w c' (by simp [hcs])
          exact alignOf_none (digit_ok1 this)
      · rw [hp]
        exact ⟨ok_cases hd rfl, ok_cases hd rfl, ok_cases hd rfl⟩
      · rw [hp]
        exact ok_cases hd rfl
      · rw [hp]
        exact hz
    | arg pos =>
      cases pos with
      | none => exact ⟨by simp [Num.print], rfl, fun _ _ _ _ => rfl, ⟨by simp [Num.print, peek], by simp [Num.print, peek], by simp [Num.print, peek]⟩,
        by simp [Num.print, peek], by simp [Num.print, peek]⟩
      | some i =>
        refine ⟨by simp [Num.print], rfl, ?_, ⟨by simp [Num.print, peek], by simp [Num.print, peek], by simp [Num.print, peek]⟩,
          by simp [Num.print, peek], by simp [Num.print, peek]⟩
        intro _ _ _ _
        have e : (Num.print (.arg (some i)) ++ k5 d tail).tail = Nat.toDigits 10 i ++ ('}' :: k5 d tail) := by
          simp [Num.print]
        rw [e, peek_append _ Nat.toDigits_ne_nil]
        exact alignOf_none (digit_ok1 (peek_toDigits i))

def setWidth (sp : Spec) : Option Nat → Spec
  | none => sp
  | some w => { sp with width := w }

def setPrecision (sp : Spec) : Option Nat → Spec
  | none => sp
  | some p => { sp with precision := some p }

theorem arg_print (pos : Option Nat) (rest : Str) : Num.print (.arg pos) ++ rest = '{' :: ((match pos with
    | none => []
    | some j => Nat.toDigits 10 j) ++ '}' :: rest) := by
  cases pos <;> simp [Num.print]

theorem parseWidth_dyn {d : DynText} (hv : d.Valid) (args : List Arg) (manual : Bool) (i : Nat) (next : Next)
    (hn : NextAt manual i next) (hm : Num.Numbered manual d.width) (sp : Spec) (tail : Str) :
    ∃ next', NextAt manual (i + optTakes d.width) next' ∧ parseWidth args next sp (k4 d tail) =
      match optValue args (ch! "width") i d.width with
      | .error m => .error (.format m)
      | .ok w => .ok (setWidth sp w, next', k5 d tail) := by
  have hok := peek_k5 hv tail
  unfold k4
  cases h : d.width with
  | none =>
    refine ⟨next, hn, ?_⟩
    simp only [List.nil_append, optValue, setWidth]
    unfold parseWidth
    rw [if_neg (by rw [ok5_not_digit hok]; decide)]
    split
    · rename_i e; rw [e] at hok; simp only [peek] at hok; exact absurd hok (by decide)
    · rfl
  | some n =>
    cases n with
    | lit w =>
      refine ⟨next, hn, ?_⟩
      simp only [Num.print, optValue, Num.value, Except.map, setWidth]
      unfold parseWidth
      rw [if_pos (by rw [peek_append _ Nat.toDigits_ne_nil]; exact peek_toDigits w),
        parseNonneg_spec w (hv.width w h).2 _ (ok5_not_digit hok)]
      rfl
    | arg pos =>
      rw [h] at hm
      obtain ⟨next', hn', ha⟩ := argNumber_spec args manual i next hn (ch! "width") pos hm
        (fun j hj => hv.widthAt j (by rw [h, hj])) (k5 d tail)
      refine ⟨next', hn', ?_⟩
      simp only
      rw [arg_print]
      unfold parseWidth
      rw [if_neg (by simp [peek, isDigit])]
      simp only
      rw [ha]
      simp only [optValue]
      cases Num.value args (ch! "width") i (.arg pos) <;> rfl

theorem parsePrecision_dyn {d : DynText} (hv : d.Valid) {a : Arg} (hf : d.precision ≠ none → a.isInteger = false)
    (args : List Arg) (manual : Bool) (i : Nat) (next : Next)
    (hn : NextAt manual i next) (hm : Num.Numbered manual d.precision) (sp : Spec) (tail : Str) :
    ∃ next', NextAt manual (i + optTakes d.precision) next' ∧ parsePrecision args a next sp (k5 d tail) =
      match optValue args (ch! "precision") i d.precision with
      | .error m => .error (.format m)
      | .ok p => .ok (setPrecision sp p, next', k6 d tail) := by
  have hok := peek_k6 hv tail
  unfold k5
  cases h : d.precision with
  | none =>
    refine ⟨next, hn, ?_⟩
    simp only [List.nil_append, optValue, setPrecision]
    unfold parsePrecision
    split
    · rename_i e; rw [e] at hok; simp only [peek] at hok; exact absurd hok (by decide)
    · rfl
  | some n =>
    have hi := hf (by simp [h])
    cases n with
    | lit p =>
      refine ⟨next, hn, ?_⟩
      simp only [Num.print, List.cons_append, optValue, Num.value, Except.map, setPrecision]
      unfold parsePrecision
      simp only
      rw [if_pos (by rw [peek_append _ Nat.toDigits_ne_nil]; exact peek_toDigits p),
        parseNonneg_spec p (hv.precision p h) _ (ok5_not_digit (by simp [ok5, hok]))]
      simp [Except.map, bind, Except.bind, hi]
    | arg pos =>
      rw [h] at hm
      obtain ⟨next', hn', ha⟩ := argNumber_spec args manual i next hn (ch! "precision") pos hm
        (fun j hj => hv.precisionAt j (by rw [h, hj])) (k6 d tail)
      refine ⟨next', hn', ?_⟩
      simp only [List.cons_append]
      rw [arg_print]
      unfold parsePrecision
      simp only
      rw [if_neg (by simp [peek, isDigit]), ha]
      simp only [optValue]
      cases Num.value args (ch! "precision") i (.arg pos) with
      | error m => rfl
      | ok p => simp [Except.map, bind, Except.bind, hi, setPrecision]

theorem parseType_dyn {d : DynText} (hv : d.Valid) (sp : Spec) (tail : Str) :
    parseType sp (k6 d tail) = (match d.type with
      | none => sp
      | some c => { sp with type := some c }, '}' :: tail) := by
  unfold k6
  cases h : d.type with
  | none => rfl
  | some c =>
    have hl := hv.type c h
    simp only [Option.toList_some, List.singleton_append]
    unfold parseType
    split
    · rename_i e; cases e
    · rename_i e
      simp only [List.cons.injEq] at e
      rw [e.1] at hl
      exact absurd hl (by decide)
    · rename_i e
      simp only [List.cons.injEq] at e
      rw [← e.1, ← e.2]

theorem meaning_dyn {d : DynText} (hv : d.Valid) (w p : Option Nat) :
    (match d.type with
      | none => setPrecision (setWidth (s4 d.head) w) p
      | some c => { setPrecision (setWidth (s4 d.head) w) p with type := some c }) = (d.with w p).meaning := by
  obtain ⟨al, sg, ha, z, w', p', ty⟩ := d
  have hs : ∀ c, sg = some c → c = '+' ∨ c = '-' ∨ c = ' ' := hv.sign
  unfold DynText.head DynText.with s4 s3 s2 s1 SpecText.meaning
  cases sg with
  | none => rcases al with _ | ⟨_ | f, al⟩ <;> cases ha <;> cases z <;> cases w <;> cases p <;> cases ty <;> rfl
  | some c =>
    rcases hs c rfl with rfl | rfl | rfl <;>
    rcases al with _ | ⟨_ | f, al⟩ <;> cases ha <;> cases z <;> cases w <;> cases p <;> cases ty <;> rfl

theorem parseSpec_dyn {d : DynText} (hv : d.Valid) {a : Arg} (hf : d.Fits a) (args : List Arg) (manual : Bool) (i : Nat)
    (next : Next) (hn : NextAt manual i next) (hm1 : Num.Numbered manual d.width) (hm2 : Num.Numbered manual d.precision)
    (tail : Str) :
    ∃ next', NextAt manual (i + d.takes) next' ∧ parseSpec args a next (d.print ++ '}' :: tail) =
      match d.resolve args i with
      | .error m => .error (.format m)
      | .ok t => .ok (t.meaning, next', '}' :: tail) := by
  obtain ⟨n1, hn1, h1⟩ := parseWidth_dyn hv args manual i next hn hm1 (s4 d.head) tail
  rw [parseSpec_head hv hf args next tail (follows_k4 hv tail), h1]
  unfold DynText.resolve
  cases optValue args (ch! "width") i d.width with
  | error m =>
    obtain ⟨n2, hn2, _⟩ := parsePrecision_dyn hv (a := a) (fun h => hf.precision (by simpa [DynText.with] using h)) args manual _ n1 hn1 hm2 (s4 d.head) tail
    exact ⟨n2, by rw [DynText.takes, ← Nat.add_assoc]; exact hn2, rfl⟩
  | ok w =>
    obtain ⟨n2, hn2, h2⟩ := parsePrecision_dyn hv (a := a) (fun h => hf.precision (by simpa [DynText.with] using h)) args manual _ n1 hn1 hm2 (setWidth (s4 d.head) w) tail
    refine ⟨n2, by rw [DynText.takes, ← Nat.add_assoc]; exact hn2, ?_⟩
    simp only
    rw [h2]
    cases optValue args (ch! "precision") (i + optTakes d.width) d.precision with
    | error m => rfl
    | ok p =>
      simp only
      rw [parseType_dyn hv]
      simp only
      rw [meaning_dyn hv]

/-- A field after its opening brace. -/
def dynFieldText (pos : Option Nat) (d : DynText) (tail : Str) : Str :=
  (match pos with
    | none => []
    | some i => Nat.toDigits 10 i) ++ ':' :: (d.print ++ '}' :: tail)

theorem field_dyn (fd : Spec → Nat → Except Err Str) (args : List Arg) (manual : Bool) (i : Nat) (next : Next)
    (hn : NextAt manual i next) (pos : Option Nat) (hm : pos.isSome = manual) (hp : ∀ j, pos = some j → j < 2 ^ 31)
    {d : DynText} (hv : d.Valid) (hf : ∀ a, args[pos.getD i]? = some a → d.Fits a)
    (hm1 : Num.Numbered manual d.width) (hm2 : Num.Numbered manual d.precision) (tail : Str) :
    ∃ next', NextAt manual (i + 1 + d.takes) next' ∧ field fd args next (dynFieldText pos d tail) =
      match args[pos.getD i]? with
      | none => .error (.format (ch! "argument index out of range"))
      | some a =>
        match d.resolve args (i + 1) with
        | .error m => .error (.format m)
        | .ok t =>
          match writeArg fd t.meaning a with
          | .error e => .error e
          | .ok out => .ok (out, next', tail) := by
  have hparse : ∃ next', NextAt manual (i + 1) next' ∧ parseArg args next (dynFieldText pos d tail) =
      match args[pos.getD i]? with
      | none => .error (.format (ch! "argument index out of range"))
      | some a => .ok (a, next', ':' :: (d.print ++ '}' :: tail)) := by
    cases pos with
    | none =>
      have hman : manual = false := by simpa using hm.symm
      subst hman
      have hnx : next = some i := hn
      subst hnx
      refine ⟨some (i + 1), rfl, ?_⟩
      simp only [dynFieldText, List.nil_append, parseArg, parseArgIndex, peek, isNameStart, isDigit, doGetArg, Option.getD_none]
      cases args[i]? <;> rfl
    | some j =>
      have hman : manual = true := by simpa using hm.symm
      subst hman
      refine ⟨none, .inr rfl, ?_⟩
      have h3 := peek_toDigits j
      unfold dynFieldText parseArg
      simp only
      rw [peek_append _ Nat.toDigits_ne_nil, if_neg (by rw [digit_not_nameStart h3]; decide)]
      unfold parseArgIndex
      simp only
      rw [peek_append _ Nat.toDigits_ne_nil, if_neg (by rw [h3]; decide), parseNonneg_spec j (hp j rfl) _ rfl]
      unfold doGetArg
      simp only [Option.getD_some]
      rcases hn with rfl | rfl <;> cases args[j]? <;> rfl
  obtain ⟨n1, hn1, h1⟩ := hparse
  unfold field
  rw [h1]
  cases ha : args[pos.getD i]? with
  | none =>
    refine ⟨if manual then none else some (i + 1 + d.takes), ?_, rfl⟩
    cases manual <;> simp [NextAt]
  | some a =>
    obtain ⟨n2, hn2, h2⟩ := parseSpec_dyn hv (hf a ha) args manual (i + 1) n1 hn1 hm1 hm2 tail
    refine ⟨n2, hn2, ?_⟩
    simp only
    unfold formatField
    rw [if_pos (show peek (':' :: _) = ':' from rfl), List.tail_cons, h2]
    cases d.resolve args (i + 1) with
    | error m => rfl
    | ok t =>
      simp only
      rw [if_pos (show peek ('}' :: tail) = '}' from rfl)]
      cases writeArg fd t.meaning a <;> rfl

theorem formatLoop_dyn (fd : Spec → Nat → Except Err Str) (args : List Arg) (manual : Bool) (ps : List DynPiece) :
    ∀ (i : Nat) (next : Next), WellFormedDyn ps → SuitsDyn args i ps → NumberedDyn manual ps → NextAt manual i next →
    ∀ fuel, (printDyn ps).length ≤ fuel → formatLoop fd args fuel next (printDyn ps) = expandDyn fd args i ps := by
  induction ps with
  | nil =>
    intro i next _ _ _ _ fuel _
    simp [printDyn, formatLoop, expandDyn]
  | cons p ps ih =>
    intro i next hw hs hm hn fuel hf
    cases p with
    | text s =>
      rw [printDyn, DynPiece.print] at hf ⊢
      rw [expandDyn]
      exact formatLoop_text fd args next _ _ (fun k hk => ih i next hw.2 hs hm hn k hk) s fuel hf
    | field pos d =>
      obtain ⟨hw1, hw2, hw3⟩ := hw
      obtain ⟨hs1, hs2⟩ := hs
      obtain ⟨hm1, hm2, hm3, hm4⟩ := hm
      have e : printDyn (.field pos d :: ps) = '{' :: dynFieldText pos d (printDyn ps) := by
        simp only [printDyn, DynPiece.print, dynFieldText, List.cons_append, List.append_assoc, List.nil_append]
      have hlen : (printDyn ps).length ≤ (dynFieldText pos d (printDyn ps)).length := by
        unfold dynFieldText
        simp only [List.length_append, List.length_cons]
        omega
      rw [e, List.length_cons] at hf
      obtain ⟨fuel, rfl⟩ : ∃ k, fuel = k + 1 := ⟨fuel - 1, by omega⟩
      have hne : peek (dynFieldText pos d (printDyn ps)) ≠ '{' := by
        unfold dynFieldText
        cases pos with
        | none => simp [peek]
        | some j =>
          simp only
          rw [peek_append _ Nat.toDigits_ne_nil]
          exact ok_cases (peek_toDigits j) rfl
      obtain ⟨n1, hn1, h1⟩ := field_dyn fd args manual i next hn pos hm1 hw1 hw2 hs1 hm2 hm3 (printDyn ps)
      rw [e, formatLoop, if_neg (by decide), if_neg hne, if_neg (by decide), expandDyn, h1]
      cases args[pos.getD i]? with
      | none => rfl
      | some a =>
        simp only
        cases d.resolve args (i + 1) with
        | error m => rfl
        | ok t =>
          simp only
          cases writeArg fd t.meaning a with
          | error x => rfl
          | ok out =>
            simp only
            rw [ih _ n1 hw3 hs2 hm4 hn1 fuel (by omega)]

theorem num_no_nul (n : Num) : '\x00' ∉ n.print := by
  cases n with
  | lit n => exact toDigits_no_nul n
  | arg pos =>
    cases pos with
    | none => decide
    | some i => simp [Num.print, toDigits_no_nul]

theorem dynPrint_no_nul {d : DynText} (hv : d.Valid) : '\x00' ∉ d.print := by
  intro h
  unfold DynText.print at h
  simp only [List.mem_append, Option.mem_toList] at h
  rcases h with h | h | h | h | h | h | h
  · split at h
    · cases h
    · rename_i f al e
      rw [List.mem_append, Option.mem_toList] at h
      rcases h with h | h
      · have h' : f = some '\x00' := h
        subst h'
        exact (hv.fill _ al e).2.2 rfl
      · cases al <;> simp [alignChar] at h
  · rcases hv.sign _ h with h | h | h <;> exact absurd h (by decide)
  · split at h <;> simp at h
  · split at h <;> simp at h
  · split at h
    · cases h
    · exact num_no_nul _ h
  · split at h
    · cases h
    · rw [List.mem_cons] at h
      rcases h with h | h
      · exact absurd h (by decide)
      · exact num_no_nul _ h
  · exact absurd (hv.type _ h) (by decide)

theorem printDyn_no_nul (ps : List DynPiece) (hw : WellFormedDyn ps) : '\x00' ∉ printDyn ps := by
  induction ps with
  | nil => simp [printDyn]
  | cons p ps ih =>
    rw [printDyn, List.mem_append, not_or]
    cases p with
    | text s =>
      refine ⟨?_, ih hw.2⟩
      have hs := hw.1
      simp only [DynPiece.print, escapeText, List.mem_flatMap, not_exists, not_and]
      intro c hc h
      split at h
      · simp at h; exact hs (h ▸ hc)
      · simp at h; exact hs (h ▸ hc)
    | field pos d =>
      obtain ⟨hw1, hw2, hw3⟩ := hw
      refine ⟨?_, ih hw3⟩
      simp only [DynPiece.print, List.mem_cons, List.mem_append, not_or]
      refine ⟨by decide, ?_, by decide, dynPrint_no_nul hw2, by decide, by simp⟩
      cases pos with
      | none => simp
      | some i => exact toDigits_no_nul i

/-! ## C66 Widths and precisions from arguments -/

/-- A format string whose widths and precisions may be nested fields expands as if the numbers that the arguments give
were written out: a field takes its argument first, then that of its width, then that of its precision. A missing
argument, one that is not an integer, a negative one and one beyond the range of `int` are errors. -/
theorem C66_expand (fd : Spec → Nat → Except Err Str) (args : List Arg) (ps : List DynPiece) (manual : Bool)
    (hw : WellFormedDyn ps) (hs : SuitsDyn args 0 ps) (hm : NumberedDyn manual ps) :
    format fd (printDyn ps) args = expandDyn fd args 0 ps := by
  unfold format
  rw [Config.cstr_plain (printDyn_no_nul ps hw)]
  refine formatLoop_dyn fd args manual ps 0 (some 0) hw hs hm ?_ _ (Nat.le_refl _)
  unfold NextAt
  cases manual <;> simp

/-- In particular a nested width does what the same number does when it is written out. -/
theorem C66_same_as_written (fd : Spec → Nat → Except Err Str) (a : Arg) (w : Nat) (hw0 : 0 < w) (hw : w < 2 ^ 31)
    (t : SpecText) (ht : t.Valid) (hf : t.Fits a) (hn : t.precision = none) (htw : t.width = some w) :
    format fd ('{' :: ':' :: (({ align := t.align, sign := t.sign, hash := t.hash, zero := t.zero, width := some (.arg none), type := t.type } : DynText).print ++ ['}'])) [a, .ulong w]
      = format fd ('{' :: ':' :: (t.print ++ ['}'])) [a, .ulong w] := by
  have h1 := C66_expand fd [a, .ulong w] [.field none { align := t.align, sign := t.sign, hash := t.hash, zero := t.zero, width := some (.arg none), type := t.type }] false
    ⟨by simp, ⟨ht.align, ht.fill, ht.sign, by simp, by simp, by simp, by simp, ht.type, by simp [DynText.print, Num.print]⟩, trivial⟩
    ⟨by
      intro b hb
      have : b = a := by simpa using hb.symm
      subst this
      exact ⟨hf.numeric, hf.signed, by simp [DynText.with]⟩, trivial⟩
    ⟨rfl, rfl, trivial, trivial⟩
  have h2 := C49_expand fd [a, .ulong w] [.field none (some t)] false
    ⟨by simp, by rintro u ⟨⟩; exact ht, trivial⟩
    ⟨by
      intro b u hb hu
      have : b = a := by simpa using hb.symm
      subst this
      cases hu
      exact hf, trivial⟩
    ⟨rfl, trivial⟩
  have ht' : (⟨t.align, t.sign, t.hash, t.zero, some w, none, t.type⟩ : SpecText) = t := by
    rw [← hn, ← htw]
  have hr : DynText.resolve [a, .ulong w] 1 { align := t.align, sign := t.sign, hash := t.hash, zero := t.zero, width := some (.arg none), type := t.type } = .ok t := by
    have hv : asNumber (ch! "width") (w : Int) = .ok w := by
      unfold asNumber
      rw [if_neg (by omega), if_neg (by omega), Int.toNat_natCast]
    have hv' : optValue [a, .ulong w] (ch! "width") 1 (some (.arg none)) = .ok (some w) := by
      show (asNumber (ch! "width") (w : Int)).map some = _
      rw [hv]
      rfl
    unfold DynText.resolve
    simp only
    rw [hv']
    simp only [optValue, DynText.with]
    rw [ht']
  simp only [printDyn, DynPiece.print, List.nil_append, List.append_nil] at h1
  simp only [printAll, Piece.print, List.nil_append, List.append_nil, List.cons_append] at h2
  rw [h1, h2]
  simp only [expandDyn, expand, Option.getD_none, List.getElem?_cons_zero, Nat.zero_add, hr, meaningOf]
  cases writeArg fd t.meaning a <;> rfl

example (fd : Spec → Nat → Except Err Str) :
    let d : DynText := { align := some (some '*', .right), width := some (.arg none), precision := some (.arg none) }
    let ps := [DynPiece.text (ch! "["), .field none d, .text (ch! "]")]
    printDyn ps = ch! "[{:*>{}.{}}]" ∧ WellFormedDyn ps ∧ SuitsDyn [.cstr (ch! "word"), .int 5, .ulong 2] 0 ps
      ∧ NumberedDyn false ps
      ∧ format fd (ch! "[{:*>{}.{}}]") [.cstr (ch! "word"), .int 5, .ulong 2] = .ok (ch! "[***wo]")
      ∧ format fd (ch! "[{:*>{}.{}}]") [.cstr (ch! "word"), .int (-1), .ulong 2] = .error (.format (ch! "negative width"))
      ∧ format fd (ch! "[{:*>{}.{}}]") [.cstr (ch! "word"), .int 5, .ulong 2147483648]
          = .error (.format (ch! "number is too big"))
      ∧ format fd (ch! "[{:*>{}.{}}]") [.cstr (ch! "word"), .int 5, .cstr (ch! "2")]
          = .error (.format (ch! "precision is not integer"))
      ∧ format fd (ch! "[{:*>{}.{}}]") [.cstr (ch! "word"), .int 5]
          = .error (.format (ch! "argument index out of range")) := by
  intro d ps
  refine ⟨rfl, ⟨by decide, by simp, ?_, by decide, trivial⟩, ⟨?_, trivial⟩, ⟨rfl, rfl, rfl, trivial⟩, rfl, rfl, rfl, rfl, rfl⟩
  · constructor <;> simp [d, DynText.print]
  · intro a ha
    have : a = .cstr (ch! "word") := by simpa using ha.symm
    subst this
    constructor <;> simp [d, DynText.with, Arg.isInteger]

end Blackhole.Fmt
