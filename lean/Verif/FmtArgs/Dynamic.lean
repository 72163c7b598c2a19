import Verif.FmtArgs.Errors
import Verif.Fmt.Dynamic

/-! # C75 Widths and precisions that are given by arguments, with positions or names -/

namespace Blackhole.FmtArgs

open Fmt (Err Spec SpecText Next Arg peek isDigit isNameStart Numbering isNumber isUnsigned needsNumber needsSigned
  isNumber_eq Align alignChar asNumber setWidth setPrecision)

/-! ## What is expected -/

/-- A number in a specification: written out, or a nested field. -/
inductive Num where
  | lit (n : Nat)
  | arg (ref : Ref)

def Num.print : Num → Str
  | .lit n => Nat.toDigits 10 n
  | .arg ref => '{' :: (ref.print ++ ['}'])

/-- `[[fill]align][sign][#][0][width][.precision][type]`, with numbers or nested fields. -/
structure DynText where
  align : Option (Option Char × Align) := none
  sign : Option Char := none
  hash : Bool := false
  zero : Bool := false
  width : Option Num := none
  precision : Option Num := none
  type : Option Char := none

/-- The same specification with numbers written out. -/
def DynText.with (d : DynText) (w p : Option Nat) : SpecText where
  align := d.align
  sign := d.sign
  hash := d.hash
  zero := d.zero
  width := w
  precision := p
  type := d.type

def DynText.print (d : DynText) : Str :=
  (match d.align with
    | none => []
    | some (f, al) => f.toList ++ [alignChar al])
  ++ (d.sign.toList
  ++ ((if d.hash then ['#'] else [])
  ++ ((if d.zero then ['0'] else [])
  ++ ((match d.width with
    | none => []
    | some w => w.print)
  ++ ((match d.precision with
    | none => []
    | some p => '.' :: p.print)
  ++ d.type.toList)))))

/-- The texts the documentation allows. -/
structure DynText.Valid (d : DynText) : Prop where
  align : ∀ f al, d.align = some (f, al) → al ≠ .default
  fill : ∀ f al, d.align = some (some f, al) → f ≠ '{' ∧ f ≠ '}' ∧ f ≠ '\x00'
  sign : ∀ c, d.sign = some c → c = '+' ∨ c = '-' ∨ c = ' '
  width : ∀ w, d.width = some (.lit w) → 0 < w ∧ w < 2 ^ 31
  widthAt : ∀ ref, d.width = some (.arg ref) → ref.Valid
  precision : ∀ p, d.precision = some (.lit p) → p < 2 ^ 31
  precisionAt : ∀ ref, d.precision = some (.arg ref) → ref.Valid
  type : ∀ c, d.type = some c → Fmt.letter c
  nonempty : d.print ≠ []

/-- A value as a width or a precision. -/
def asCount (what : Str) : Val → Except Str Nat
  | .arg (.int z) => asNumber what z
  | .arg (.long z) => asNumber what z
  | .arg (.uint n) => asNumber what n
  | .arg (.ulong n) => asNumber what n
  | _ => .error (what ++ ch! " is not integer")

/-- The value of a width or a precision and the numbering after it. -/
def number (args : List Passed) (what : Str) (n : Numbering) : Option Num → Except Str (Option Nat × Numbering)
  | none => .ok (none, n)
  | some (.lit k) => .ok (some k, n)
  | some (.arg ref) =>
    match select args n ref with
    | .error m => .error m
    | .ok (v, n) =>
      match asCount what v with
      | .error m => .error m
      | .ok k => .ok (some k, n)

/-- What is wrong with the parts before the width. -/
def DynText.complaints (d : DynText) (v : Val) : List Str := FmtArgs.complaints (d.with none none) v

/-- What is wrong with having a precision; 1 stands for any. -/
def DynText.precisionComplaints (d : DynText) (v : Val) : List Str :=
  FmtArgs.complaints { precision := d.precision.map fun _ => 1 } v

/-- An argument with a specification, from left to right: the first fault counts. -/
def presentDyn (fd : Spec → Nat → Except Err Str) (args : List Passed) (n : Numbering) (spec : Option DynText) (v : Val) :
    Except Err (Str × Numbering) :=
  match spec with
  | none => (written fd {} v).map fun out => (out, n)
  | some d =>
    match d.complaints v with
    | m :: _ => .error (.format m)
    | [] =>
      match number args (ch! "width") n d.width with
      | .error m => .error (.format m)
      | .ok (w, n) =>
        match number args (ch! "precision") n d.precision with
        | .error m => .error (.format m)
        | .ok (p, n) =>
          match d.precisionComplaints v with
          | m :: _ => .error (.format m)
          | [] => (written fd (d.with w p).meaning v).map fun out => (out, n)

/-- A piece of a format string whose specifications may have nested fields. -/
inductive DynPiece where
  | text (s : Str)
  | field (ref : Ref) (spec : Option DynText)

/-- A field after its argument. -/
def dynTail : Option DynText → Str → Str
  | none, tail => '}' :: tail
  | some d, tail => ':' :: (d.print ++ '}' :: tail)

def DynPiece.print : DynPiece → Str
  | .text s => Fmt.escapeText s
  | .field ref spec => '{' :: (ref.print ++ dynTail spec [])

def printDyn : List DynPiece → Str
  | [] => []
  | p :: ps => p.print ++ printDyn ps

/-- The whole format string. -/
def outcomeDyn (fd : Spec → Nat → Except Err Str) (args : List Passed) : Numbering → List DynPiece → Except Err Str
  | _, [] => .ok []
  | n, .text s :: ps => (outcomeDyn fd args n ps).map (s ++ ·)
  | n, .field ref spec :: ps =>
    match select args n ref with
    | .error m => .error (.format m)
    | .ok (v, n) =>
      match presentDyn fd args n spec v with
      | .error e => .error e
      | .ok (out, n) => (outcomeDyn fd args n ps).map (out ++ ·)

def WellFormedDyn : List DynPiece → Prop
  | [] => True
  | .text s :: ps => '\x00' ∉ s ∧ WellFormedDyn ps
  | .field ref spec :: ps => ref.Valid ∧ (∀ d, spec = some d → d.Valid) ∧ WellFormedDyn ps

/-! ## Helpers -/

/-- The same with positions only: what precedes the width is read as there. -/
def Num.plain : Num → Fmt.Num
  | .lit n => .lit n
  | .arg _ => .arg none

def DynText.plain (d : DynText) : Fmt.DynText where
  align := d.align
  sign := d.sign
  hash := d.hash
  zero := d.zero
  width := d.width.map Num.plain
  precision := d.precision.map Num.plain
  type := d.type

theorem plain_valid {d : DynText} (hv : d.Valid) : d.plain.Valid := by
  refine ⟨hv.align, hv.fill, hv.sign, ?_, ?_, ?_, ?_, hv.type, ?_⟩
  · intro w h
    simp only [DynText.plain, Option.map_eq_some_iff] at h
    obtain ⟨n, h1, h2⟩ := h
    cases n with
    | lit k => simp only [Num.plain, Fmt.Num.lit.injEq] at h2; subst h2; exact hv.width k h1
    | arg r => cases h2
  · intro i h
    simp only [DynText.plain, Option.map_eq_some_iff] at h
    obtain ⟨n, h1, h2⟩ := h
    cases n <;> cases h2
  · intro p h
    simp only [DynText.plain, Option.map_eq_some_iff] at h
    obtain ⟨n, h1, h2⟩ := h
    cases n with
    | lit k => simp only [Num.plain, Fmt.Num.lit.injEq] at h2; subst h2; exact hv.precision k h1
    | arg r => cases h2
  · intro i h
    simp only [DynText.plain, Option.map_eq_some_iff] at h
    obtain ⟨n, h1, h2⟩ := h
    cases n <;> cases h2
  · intro h
    refine hv.nonempty ?_
    unfold Fmt.DynText.print DynText.plain at h
    unfold DynText.print
    simp only [List.append_eq_nil_iff] at h ⊢
    obtain ⟨h1, h2, h3, h4, h5, h6, h7⟩ := h
    refine ⟨h1, h2, h3, h4, ?_, ?_, h7⟩
    · cases hw : d.width with
      | none => rfl
      | some n =>
        rw [hw] at h5
        cases n with
        | lit k => exact absurd h5 Nat.toDigits_ne_nil
        | arg r => simp [Num.plain, Fmt.Num.print] at h5
    · cases hp : d.precision with
      | none => rfl
      | some n => rw [hp] at h6; simp at h6

/-- What follows the precision. -/
def k6 (d : DynText) (tail : Str) : Str := d.type.toList ++ '}' :: tail
def k5 (d : DynText) (tail : Str) : Str :=
  (match d.precision with
    | none => []
    | some p => '.' :: p.print) ++ k6 d tail
def k4 (d : DynText) (tail : Str) : Str :=
  (match d.width with
    | none => []
    | some w => w.print) ++ k5 d tail

theorem dynPrint_eq (d : DynText) (tail : Str) : d.print ++ '}' :: tail = Fmt.q0 d.plain (k4 d tail) := by
  unfold DynText.print Fmt.q0 Fmt.q1 Fmt.q2 Fmt.q3 k4 k5 k6 DynText.plain
  simp only [List.append_assoc]
  rfl

theorem peek_k6 {d : DynText} (hv : d.Valid) (tail : Str) : Fmt.ok6 (peek (k6 d tail)) = true := by
  unfold k6
  cases h : d.type with
  | none => rfl
  | some c =>
    have := hv.type c h
    simp [peek, Fmt.ok6, this]

theorem peek_k5 {d : DynText} (hv : d.Valid) (tail : Str) : Fmt.ok5 (peek (k5 d tail)) = true := by
  unfold k5
  cases h : d.precision with
  | none => simp [Fmt.ok5, peek_k6 hv tail]
  | some p => rfl

theorem peek_print (n : Num) (rest : Str) : isDigit (peek (n.print ++ rest)) = true ∨ peek (n.print ++ rest) = '{' := by
  cases n with
  | lit n =>
    left
    rw [Num.print, Fmt.peek_append _ Nat.toDigits_ne_nil]
    exact Fmt.peek_toDigits n
  | arg ref => exact .inr rfl

theorem nameStart_align {c : Char} (h : isNameStart c = true) : Fmt.alignOf c = none := by
  unfold Fmt.alignOf
  split <;> first
    | rfl
    | exact absurd h (by decide)

theorem follows_k4 {d : DynText} (hv : d.Valid) (tail : Str) : Fmt.Follows d.plain (k4 d tail) := by
  have h5 := peek_k5 hv tail
  have h6 := peek_k6 hv tail
  cases hw : d.width with
  | none =>
    have e : k4 d tail = k5 d tail := by simp [k4, hw]
    rw [e]
    refine ⟨?_, Fmt.alignOf_none (Fmt.ok5_ok1 h5), ?_, ⟨Fmt.ok_cases h5 rfl, Fmt.ok_cases h5 rfl, Fmt.ok_cases h5 rfl⟩,
      Fmt.ok_cases h5 rfl, Fmt.ok_cases h5 rfl⟩
    · unfold k5 k6
      simp
    · intro h1 h2 h3 h4
      cases hp : d.precision with
      | some p =>
        have e : (k5 d tail).tail = p.print ++ k6 d tail := by simp [k5, hp]
        rw [e]
        rcases peek_print p (k6 d tail) with h | h
        · exact Fmt.align_none (.inl (Fmt.digit_ok1 h))
        · exact Fmt.align_none (.inr h)
      | none =>
        cases ht : d.type with
        | some c =>
          have e : (k5 d tail).tail = '}' :: tail := by simp [k5, k6, hp, ht]
          rw [e]
          rfl
        | none =>
          have h1 : d.align = none := h1
          have h2 : d.sign = none := h2
          have h3 : d.hash = false := h3
          have h4 : d.zero = false := h4
          refine absurd ?_ hv.nonempty
          simp [DynText.print, h1, h2, h3, h4, hw, hp, ht]
  | some n =>
    have e : k4 d tail = n.print ++ k5 d tail := by simp [k4, hw]
    rw [e]
    cases n with
    | lit w =>
      have hd := Fmt.peek_toDigits w
      have hz := Fmt.peek_toDigits_ne_zero w (hv.width w hw).1
      have hp : peek (Num.print (.lit w) ++ k5 d tail) = peek (Nat.toDigits 10 w) := by
        rw [Num.print, Fmt.peek_append _ Nat.toDigits_ne_nil]
      refine ⟨by simp [Num.print, Nat.toDigits_ne_nil], ?_, ?_, ?_, ?_, ?_⟩
      · rw [hp]
        exact Fmt.alignOf_none (Fmt.digit_ok1 hd)
      · intro _ _ _ _
        obtain ⟨c, cs, hcs⟩ := List.exists_cons_of_ne_nil (Nat.toDigits_ne_nil (n := w) (b := 10))
        rw [Num.print, hcs, List.cons_append, List.tail_cons]
        cases cs with
        | nil => exact Fmt.alignOf_none (Fmt.ok5_ok1 h5)
        | cons c' cs =>
          have := Fmt.toDigits_isDigit w c' (by simp [hcs])
          exact Fmt.alignOf_none (Fmt.digit_ok1 this)
      · rw [hp]
        exact ⟨Fmt.ok_cases hd rfl, Fmt.ok_cases hd rfl, Fmt.ok_cases hd rfl⟩
      · rw [hp]
        exact Fmt.ok_cases hd rfl
      · rw [hp]
        exact hz
    | arg ref =>
      refine ⟨by simp [Num.print], rfl, ?_, ⟨by simp [Num.print, peek], by simp [Num.print, peek], by simp [Num.print, peek]⟩,
        by simp [Num.print, peek], by simp [Num.print, peek]⟩
      intro _ _ _ _
      have e : (Num.print (.arg ref) ++ k5 d tail).tail = ref.print ++ ('}' :: k5 d tail) := by
        simp [Num.print]
      rw [e]
      cases ref with
      | auto => rfl
      | index i =>
        rw [show Ref.print (.index i) = Nat.toDigits 10 i from rfl, Fmt.peek_append _ Nat.toDigits_ne_nil]
        exact Fmt.alignOf_none (Fmt.digit_ok1 (Fmt.peek_toDigits i))
      | name s =>
        obtain ⟨c, cs, rfl, h1, _⟩ := ident_cons (hv.widthAt _ hw)
        exact nameStart_align h1

/-- The part before the width. -/
theorem parseSpec_head {d : DynText} (hv : d.Valid) {v : Val} (hcu : ∀ text, v ≠ .custom text) (l : ArgList) (next : Next)
    (tail : Str) :
    parseSpec l v next (d.print ++ '}' :: tail) =
      match d.complaints v with
      | m :: _ => .error (.format m)
      | [] =>
        match parseWidth l next (Fmt.s4 d.plain.head) (k4 d tail) with
        | .error e => .error e
        | .ok (spec, next, s) =>
          match parsePrecision l v next spec s with
          | .error e => .error e
          | .ok (spec, next, s) => .ok ((Fmt.parseType spec s).1, next, (Fmt.parseType spec s).2) := by
  have hk := follows_k4 hv tail
  have hpv := plain_valid hv
  have hc : d.complaints v =
      (if (d.align.map (·.2)) = some .numeric ∧ ¬ isNumber v.asArg then [needsNumber '='] else [])
      ++ ((match d.sign with
        | none => []
        | some c => if ¬ isNumber v.asArg then [needsNumber c] else if isUnsigned v.asArg then [needsSigned c] else [])
      ++ ((if d.hash ∧ ¬ isNumber v.asArg then [needsNumber '#'] else [])
      ++ (if d.zero ∧ ¬ isNumber v.asArg then [needsNumber '0'] else []))) := by
    unfold DynText.complaints
    rw [complaints_eq _ v hcu]
    simp only [DynText.with, ne_eq, not_true_eq_false, if_false, List.append_nil]
    rfl
  rw [hc, dynPrint_eq]
  unfold parseSpec
  generalize v.asArg = a
  by_cases h1 : (∃ f, d.align = some (f, .numeric)) → a.isNumeric = true
  case neg =>
    simp only [Classical.not_imp] at h1
    obtain ⟨⟨f, h⟩, hn⟩ := h1
    rw [isNumber_eq] at hn
    rw [if_pos ⟨by rw [h]; rfl, hn⟩, List.cons_append]
    have : Fmt.parseAlign a {} (Fmt.q0 d.plain (k4 d tail)) = .error (.format (needsNumber '=')) := by
      have ha1 := (Fmt.alignOf_q hpv hk).1
      unfold Fmt.q0
      rw [show d.plain.align = some (f, .numeric) from h]
      cases f with
      | none =>
        simp only [Option.toList_none, List.nil_append, List.singleton_append, alignChar]
        unfold Fmt.parseAlign
        simp only [ha1, show Fmt.alignOf '=' = some .numeric from rfl]
        simp only [Fmt.afterAlign, if_true, Fmt.requireNumeric_eq, if_neg hn]
      | some f =>
        obtain ⟨hf1, hf2, _⟩ := hv.fill f _ h
        simp only [Option.toList_some, List.cons_append, List.nil_append, alignChar]
        unfold Fmt.parseAlign
        simp only [peek, Fmt.alignOf]
        rw [if_neg hf2, if_neg hf1]
        simp only [Fmt.afterAlign, if_true, Fmt.requireNumeric_eq, if_neg hn]
    rw [this]
    rfl
  rw [if_neg (by
    rintro ⟨h, hn⟩
    cases ha : d.align with
    | none => simp [ha] at h
    | some x =>
      have := h1 ⟨x.1, by rw [ha]; simp [ha] at h; rw [← h]⟩
      rw [isNumber_eq] at this
      exact hn this), List.nil_append]
  rw [Fmt.parseAlign_dyn hpv h1 hk]
  simp only [bind, Except.bind]
  by_cases h2 : d.sign ≠ none → a.isNumeric = true ∧ (∀ n, a ≠ .uint n) ∧ ∀ n, a ≠ .ulong n
  case neg =>
    simp only [Classical.not_imp] at h2
    obtain ⟨hs, h2⟩ := h2
    obtain ⟨c, hcs⟩ := Option.ne_none_iff_exists'.1 hs
    rw [isNumber_eq] at h2
    have hps : ∀ m, Fmt.checkSign a c = .error (.format m) →
        Fmt.parseSign a (Fmt.s1 d.plain.head) (Fmt.q1 d.plain (k4 d tail)) = .error (.format m) := by
      intro m he
      unfold Fmt.q1
      rw [show d.plain.sign = some c from hcs]
      rcases hv.sign c hcs with rfl | rfl | rfl <;> simp [Fmt.parseSign, he, Except.map]
    rw [hcs]
    cases hn : isNumber a with
    | false =>
      rw [hps (needsNumber c) (by rw [Fmt.checkSign_eq, hn]; rfl)]
      simp only [Bool.false_eq_true, not_false_eq_true, if_true, List.cons_append]
    | true =>
      have hu : isUnsigned a = true := by
        cases hu : isUnsigned a with
        | true => rfl
        | false =>
          refine absurd ⟨hn, ?_, ?_⟩ h2
          · rintro n rfl; simp [isUnsigned] at hu
          · rintro n rfl; simp [isUnsigned] at hu
      rw [hps (needsSigned c) (by rw [Fmt.checkSign_eq, hn, hu]; rfl)]
      simp only [hu, not_true_eq_false, if_false, if_true, List.cons_append]
  have hsign : (match d.sign with
    | none => []
    | some c => if ¬ isNumber a then [needsNumber c] else if isUnsigned a then [needsSigned c] else []) = [] := by
    cases hs : d.sign with
    | none => rfl
    | some c =>
      obtain ⟨e1, e2, e3⟩ := h2 (by simp [hs])
      rw [isNumber_eq] at e1
      have e4 : isUnsigned a = false := by
        cases a <;> first | rfl | exact absurd rfl (e2 _) | exact absurd rfl (e3 _)
      simp [e1, e4]
  rw [hsign, List.nil_append, Fmt.parseSign_dyn hpv (fun h => (h2 h).1) (fun h => (h2 h).2) hk]
  simp only
  by_cases h3 : d.hash = true → a.isNumeric = true
  case neg =>
    simp only [Classical.not_imp] at h3
    rw [isNumber_eq] at h3
    rw [if_pos h3]
    have : Fmt.parseHash a (Fmt.s2 d.plain.head) (Fmt.q2 d.plain (k4 d tail)) = .error (.format (needsNumber '#')) := by
      unfold Fmt.q2
      rw [show d.plain.hash = true from h3.1]
      simp [Fmt.parseHash, Fmt.requireNumeric_eq, h3.2, Except.map]
    rw [this]
    rfl
  rw [if_neg (by rintro ⟨h, hn⟩; rw [← isNumber_eq] at hn; exact hn (h3 h)), List.nil_append,
    Fmt.parseHash_dyn h3 hk]
  simp only
  by_cases h4 : d.zero = true → a.isNumeric = true
  case neg =>
    simp only [Classical.not_imp] at h4
    rw [isNumber_eq] at h4
    rw [if_pos h4]
    have : Fmt.parseZero a (Fmt.s3 d.plain.head) (Fmt.q3 d.plain (k4 d tail)) = .error (.format (needsNumber '0')) := by
      unfold Fmt.q3
      rw [show d.plain.zero = true from h4.1]
      simp [Fmt.parseZero, Fmt.requireNumeric_eq, h4.2, Except.map]
    rw [this]
  rw [if_neg (by rintro ⟨h, hn⟩; rw [← isNumber_eq] at hn; exact hn (h4 h)), Fmt.parseZero_dyn h4 hk]
  simp only
  cases parseWidth l next (Fmt.s4 d.plain.head) (k4 d tail) with
  | error e => rfl
  | ok x =>
    simp only
    cases parsePrecision l v x.2.1 x.1 x.2.2 <;> rfl

theorem argNumber_select (args : List Passed) (n : Numbering) (what : Str) (ref : Ref) (hv : ref.Valid) (tail : Str) :
    argNumber (makeArgList args) n.next what (ref.print ++ '}' :: tail) =
      match number args what n (some (.arg ref)) with
      | .error m => .error (.format m)
      | .ok (k, n) => .ok (k.getD 0, n.next, tail) := by
  unfold argNumber
  rw [parseArg_select args n ref hv _ (.inr rfl)]
  simp only [number]
  cases select args n ref with
  | error m => rfl
  | ok x =>
    obtain ⟨v, n'⟩ := x
    simp only [bind, Except.bind]
    cases v with
    | arg a =>
      cases a with
      | int z | long z =>
        simp only [asCount, asNumber]
        by_cases hz : z < 0
        · rw [if_pos hz, if_pos hz]
        · rw [if_neg hz, if_neg hz]
          by_cases hb : (2 ^ 31 : Int) ≤ z
          · rw [if_pos (by omega), if_pos hb]
          · rw [if_neg (by omega), if_neg hb]
            rfl
      | uint n | ulong n =>
        simp only [asCount, asNumber]
        rw [if_neg (by omega : ¬ (n : Int) < 0)]
        by_cases hb : (2 ^ 31 : Int) ≤ (n : Int)
        · rw [if_pos (by omega), if_pos hb]
        · rw [if_neg (by omega), if_neg hb]
          simp
      | _ => rfl
    | _ => rfl

theorem arg_print (ref : Ref) (rest : Str) : Num.print (.arg ref) ++ rest = '{' :: (ref.print ++ '}' :: rest) := by
  simp [Num.print]

theorem number_arg {args : List Passed} {what : Str} {n n' : Numbering} {ref : Ref} {k : Option Nat}
    (h : number args what n (some (.arg ref)) = .ok (k, n')) : ∃ j, k = some j := by
  simp only [number] at h
  split at h
  · cases h
  · split at h
    · cases h
    · simp only [Except.ok.injEq, Prod.mk.injEq] at h
      exact ⟨_, h.1.symm⟩

theorem parseWidth_dyn {d : DynText} (hv : d.Valid) (args : List Passed) (n : Numbering) (sp : Spec) (tail : Str) :
    parseWidth (makeArgList args) n.next sp (k4 d tail) =
      match number args (ch! "width") n d.width with
      | .error m => .error (.format m)
      | .ok (w, n) => .ok (setWidth sp w, n.next, k5 d tail) := by
  have hok := peek_k5 hv tail
  unfold k4
  cases h : d.width with
  | none =>
    simp only [List.nil_append, number, setWidth]
    unfold parseWidth
    rw [if_neg (by rw [Fmt.ok5_not_digit hok]; decide)]
    split
    · rename_i e; rw [e] at hok; simp only [peek] at hok; exact absurd hok (by decide)
    · rfl
  | some x =>
    cases x with
    | lit w =>
      simp only [Num.print, number, setWidth]
      unfold parseWidth
      rw [if_pos (by rw [Fmt.peek_append _ Nat.toDigits_ne_nil]; exact Fmt.peek_toDigits w),
        Fmt.parseNonneg_spec w (hv.width w h).2 _ (Fmt.ok5_not_digit hok)]
      rfl
    | arg ref =>
      simp only
      rw [arg_print]
      unfold parseWidth
      rw [if_neg (by simp [peek, isDigit])]
      simp only
      rw [argNumber_select args n (ch! "width") ref (hv.widthAt ref h) (k5 d tail)]
      cases hn : number args (ch! "width") n (some (.arg ref)) with
      | error m => rfl
      | ok y =>
        obtain ⟨k, n'⟩ := y
        obtain ⟨j, rfl⟩ := number_arg hn
        rfl

theorem precisionComplaints_eq (d : DynText) (v : Val) (hcu : ∀ text, v ≠ .custom text) :
    d.precisionComplaints v = if d.precision ≠ none then (noPrecision v).toList else [] := by
  unfold DynText.precisionComplaints
  rw [complaints_eq _ v hcu]
  simp

theorem parsePrecision_dyn {d : DynText} (hv : d.Valid) {v : Val} (hcu : ∀ text, v ≠ .custom text) (args : List Passed)
    (n : Numbering) (sp : Spec) (tail : Str) :
    parsePrecision (makeArgList args) v n.next sp (k5 d tail) =
      match number args (ch! "precision") n d.precision with
      | .error m => .error (.format m)
      | .ok (p, n) =>
        match d.precisionComplaints v with
        | m :: _ => .error (.format m)
        | [] => .ok (setPrecision sp p, n.next, k6 d tail) := by
  have hok := peek_k6 hv tail
  rw [precisionComplaints_eq d v hcu]
  unfold k5
  cases h : d.precision with
  | none =>
    simp only [List.nil_append, number, setPrecision, ne_eq, not_true_eq_false, if_false]
    unfold parsePrecision
    split
    · rename_i e; rw [e] at hok; simp only [peek] at hok; exact absurd hok (by decide)
    · rfl
  | some x =>
    rw [if_pos (by simp)]
    cases x with
    | lit p =>
      simp only [Num.print, List.cons_append, number, setPrecision]
      unfold parsePrecision
      simp only
      rw [if_pos (by rw [Fmt.peek_append _ Nat.toDigits_ne_nil]; exact Fmt.peek_toDigits p),
        Fmt.parseNonneg_spec p (hv.precision p h) _ (Fmt.ok5_not_digit (by simp [Fmt.ok5, hok]))]
      simp only [Except.map, bind, Except.bind]
      cases noPrecision v <;> rfl
    | arg ref =>
      simp only [List.cons_append]
      rw [arg_print]
      unfold parsePrecision
      simp only
      rw [if_neg (by simp [peek, isDigit]),
        argNumber_select args n (ch! "precision") ref (hv.precisionAt ref h) (k6 d tail)]
      cases hn : number args (ch! "precision") n (some (.arg ref)) with
      | error m => rfl
      | ok y =>
        obtain ⟨k, n'⟩ := y
        obtain ⟨j, rfl⟩ := number_arg hn
        simp only [bind, Except.bind]
        cases noPrecision v <;> rfl

theorem parseType_dyn {d : DynText} (hv : d.Valid) (sp : Spec) (tail : Str) :
    Fmt.parseType sp (k6 d tail) = (match d.type with
      | none => sp
      | some c => { sp with type := some c }, '}' :: tail) :=
  Fmt.parseType_dyn (plain_valid hv) sp tail

theorem meaning_dyn {d : DynText} (hv : d.Valid) (w p : Option Nat) :
    (match d.type with
      | none => setPrecision (setWidth (Fmt.s4 d.plain.head) w) p
      | some c => { setPrecision (setWidth (Fmt.s4 d.plain.head) w) p with type := some c }) = (d.with w p).meaning :=
  Fmt.meaning_dyn (plain_valid hv) w p

theorem formatPlain_dyn (fd : Spec → Nat → Except Err Str) (args : List Passed) (v : Val) (hr : v.InRange) (n : Numbering)
    (hcu : ∀ text, v ≠ .custom text) (spec : Option DynText) (hv : ∀ d, spec = some d → d.Valid) (tail : Str) :
    formatPlain fd (makeArgList args) v n.next (dynTail spec tail) =
      match presentDyn fd args n spec v with
      | .error e => .error e
      | .ok (out, n) => .ok (out, n.next, tail) := by
  unfold formatPlain
  cases spec with
  | none =>
    rw [show dynTail none tail = '}' :: tail from rfl, if_neg (by simp [peek])]
    simp only
    rw [if_pos (show peek ('}' :: tail) = '}' from rfl), writeVal_written fd _ v hr hcu]
    simp only [presentDyn]
    cases written fd {} v <;> rfl
  | some d =>
    have hd := hv d rfl
    rw [show dynTail (some d) tail = ':' :: (d.print ++ '}' :: tail) from rfl,
      if_pos (show peek (':' :: _) = ':' from rfl), List.tail_cons, parseSpec_head hd hcu]
    simp only [presentDyn]
    cases d.complaints v with
    | cons m ms => rfl
    | nil =>
      simp only
      rw [parseWidth_dyn hd]
      cases number args (ch! "width") n d.width with
      | error m => rfl
      | ok x =>
        obtain ⟨w, n1⟩ := x
        simp only
        rw [parsePrecision_dyn hd hcu]
        cases number args (ch! "precision") n1 d.precision with
        | error m => rfl
        | ok y =>
          obtain ⟨p, n2⟩ := y
          simp only
          cases d.precisionComplaints v with
          | cons m ms => rfl
          | nil =>
            simp only
            rw [parseType_dyn hd, meaning_dyn hd]
            simp only
            rw [if_pos (show peek ('}' :: tail) = '}' from rfl), writeVal_written fd _ v hr hcu]
            cases written fd (d.with w p).meaning v <;> rfl

/-- An object of a user type is treated as the string that it prints. -/
theorem presentDyn_custom (fd : Spec → Nat → Except Err Str) (args : List Passed) (n : Numbering) (spec : Option DynText)
    (text : Str) : presentDyn fd args n spec (.custom text) = presentDyn fd args n spec (printed text) := rfl

theorem formatField_dyn (fd : Spec → Nat → Except Err Str) (args : List Passed) (v : Val) (hr : v.InRange) (n : Numbering)
    (spec : Option DynText) (hv : ∀ d, spec = some d → d.Valid) (tail : Str) :
    formatField fd (makeArgList args) v n.next (dynTail spec tail) =
      match presentDyn fd args n spec v with
      | .error e => .error e
      | .ok (out, n) => .ok (out, n.next, tail) := by
  cases v with
  | custom text =>
    have h := formatPlain_dyn fd args (printed text) trivial n (by intro t h; cases h) spec hv tail
    rw [presentDyn_custom]
    unfold formatField
    simp only
    rw [h]
    cases spec with
    | none =>
      rw [if_neg (by simp [dynTail, peek]), if_pos (show peek (dynTail none tail) = '}' from rfl)]
      simp only [presentDyn]
      cases written fd {} (printed text) <;> rfl
    | some d => rw [if_pos (show peek (dynTail (some d) tail) = ':' from rfl)]
  | arg a => exact formatPlain_dyn fd args _ hr n (by simp) spec hv tail
  | uchar a => exact formatPlain_dyn fd args _ hr n (by simp) spec hv tail
  | ptr a => exact formatPlain_dyn fd args _ hr n (by simp) spec hv tail

theorem peek_dynTail (spec : Option DynText) (tail : Str) : peek (dynTail spec tail) = ':' ∨ peek (dynTail spec tail) = '}' := by
  cases spec with
  | none => exact .inr rfl
  | some d => exact .inl rfl

theorem peek_dynRef {ref : Ref} (hv : ref.Valid) (spec : Option DynText) (tail : Str) :
    peek (ref.print ++ dynTail spec tail) ≠ '{' := by
  cases ref with
  | auto =>
    rcases peek_dynTail spec tail with h | h <;>
      rw [show Ref.print .auto ++ dynTail spec tail = dynTail spec tail from rfl, h] <;> decide
  | index i =>
    rw [show Ref.print (.index i) = Nat.toDigits 10 i from rfl, Fmt.peek_append _ Nat.toDigits_ne_nil]
    intro h
    have := Fmt.peek_toDigits i
    rw [h] at this
    exact absurd this (by decide)
  | name s =>
    obtain ⟨c, cs, rfl, h1, _⟩ := ident_cons hv
    show c ≠ '{'
    rintro rfl
    exact absurd h1 (by decide)

theorem formatLoop_outcomeDyn (fd : Spec → Nat → Except Err Str) (args : List Passed) (hr : ∀ a ∈ args, a.value.InRange)
    (ps : List DynPiece) : ∀ (n : Numbering), WellFormedDyn ps → ∀ fuel, (printDyn ps).length ≤ fuel →
      formatLoop fd (makeArgList args) fuel n.next (printDyn ps) = outcomeDyn fd args n ps := by
  induction ps with
  | nil =>
    intro n _ fuel _
    simp [printDyn, formatLoop, outcomeDyn]
  | cons p ps ih =>
    intro n hw fuel hf
    cases p with
    | text s =>
      rw [printDyn, DynPiece.print] at hf ⊢
      rw [outcomeDyn]
      exact formatLoop_text fd _ n.next _ _ (fun k hk => ih n hw.2 k hk) s fuel hf
    | field ref spec =>
      obtain ⟨hw1, hw2, hw3⟩ := hw
      have e : printDyn (.field ref spec :: ps) = '{' :: (ref.print ++ dynTail spec (printDyn ps)) := by
        cases spec <;> simp [printDyn, DynPiece.print, dynTail]
      have hlen : (printDyn ps).length ≤ (ref.print ++ dynTail spec (printDyn ps)).length := by
        cases spec <;> simp only [dynTail, List.length_append, List.length_cons] <;> omega
      rw [e, List.length_cons] at hf
      obtain ⟨fuel, rfl⟩ : ∃ k, fuel = k + 1 := ⟨fuel - 1, by omega⟩
      rw [e, formatLoop, if_neg (by decide), if_neg (peek_dynRef hw1 _ _), if_neg (by decide), outcomeDyn]
      unfold field
      rw [parseArg_select args n ref hw1 _ (peek_dynTail _ _)]
      cases hs : select args n ref with
      | error m => rfl
      | ok x =>
        obtain ⟨v, n'⟩ := x
        obtain ⟨a, ha1, ha2⟩ := select_mem hs
        simp only
        rw [formatField_dyn fd args v (ha2 ▸ hr a ha1) n' spec hw2]
        cases presentDyn fd args n' spec v with
        | error x => rfl
        | ok y =>
          simp only
          rw [ih y.2 hw3 fuel (by omega)]

theorem ref_no_nul {ref : Ref} (hv : ref.Valid) : '\x00' ∉ ref.print := by
  cases ref with
  | auto => simp [Ref.print]
  | index i => exact Fmt.toDigits_no_nul i
  | name s => exact ident_no_nul hv

theorem dynPrint_no_nul {d : DynText} (hv : d.Valid) : '\x00' ∉ d.print := by
  have hnum : ∀ n : Num, (∀ ref, n = .arg ref → ref.Valid) → '\x00' ∉ n.print := by
    intro n hn
    cases n with
    | lit n => exact Fmt.toDigits_no_nul n
    | arg ref => simp [Num.print, ref_no_nul (hn ref rfl)]
  intro h
  unfold DynText.print at h
  simp only [List.mem_append, Option.mem_toList] at h
  rcases h with h | h | h | h | h | h | h
  · split at h
    · cases h
    · rename_i f al e
      rw [List.mem_append, Option.mem_toList] at h
      rcases h with h | h
      · have h' : f = some '\x00' := h
        subst h'
        exact (hv.fill _ al e).2.2 rfl
      · cases al <;> simp [alignChar] at h
  · rcases hv.sign _ h with h | h | h <;> exact absurd h (by decide)
  · split at h <;> simp at h
  · split at h <;> simp at h
  · split at h
    · cases h
    · rename_i w e
      exact hnum w (fun ref he => hv.widthAt ref (he ▸ e)) h
  · split at h
    · cases h
    · rename_i w e
      rw [List.mem_cons] at h
      rcases h with h | h
      · exact absurd h (by decide)
      · exact hnum w (fun ref he => hv.precisionAt ref (he ▸ e)) h
  · exact absurd (hv.type _ h) (by decide)

theorem printDyn_no_nul (ps : List DynPiece) (hw : WellFormedDyn ps) : '\x00' ∉ printDyn ps := by
  induction ps with
  | nil => simp [printDyn]
  | cons p ps ih =>
    rw [printDyn, List.mem_append, not_or]
    cases p with
    | text s =>
      refine ⟨?_, ih hw.2⟩
      have hs := hw.1
      simp only [DynPiece.print, Fmt.escapeText, List.mem_flatMap, not_exists, not_and]
      intro c hc h
      split at h
      · simp at h; exact hs (h ▸ hc)
      · simp at h; exact hs (h ▸ hc)
    | field ref spec =>
      obtain ⟨hw1, hw2, hw3⟩ := hw
      refine ⟨?_, ih hw3⟩
      simp only [DynPiece.print, List.mem_cons, List.mem_append, not_or]
      refine ⟨by decide, ref_no_nul hw1, ?_⟩
      cases spec with
      | none => simp [dynTail]
      | some d => simp [dynTail, dynPrint_no_nul (hw2 d rfl)]

/-! ## The property -/

/-- The same for format strings whose widths and precisions may be fields themselves, with positions or names: the
argument of the field is taken first, then that of the width, then that of the precision. -/
theorem C75_nested (fd : Spec → Nat → Except Err Str) (args : List Passed) (hr : ∀ a ∈ args, a.value.InRange)
    (ps : List DynPiece) (hw : WellFormedDyn ps) :
    format fd (printDyn ps) args = outcomeDyn fd args (.automatic 0) ps := by
  unfold format
  rw [Config.cstr_plain (printDyn_no_nul ps hw)]
  exact formatLoop_outcomeDyn fd args hr ps (.automatic 0) hw _ (Nat.le_refl _)

example (fd : Spec → Nat → Except Err Str) :
    let d : DynText := { align := some (some '*', .right), width := some (.arg (.name (ch! "user_1"))), precision := some (.arg (.index 1)) }
    let ps := [DynPiece.field (.index 0) (some d), .text (ch! "|")]
    let args := [Passed.val (.custom (ch! "alice")), .val (.arg (.int 3)), .named (ch! "user_1") (.arg (.ulong 5))]
    printDyn ps = ch! "{0:*>{user_1}.{1}}|" ∧ WellFormedDyn ps ∧ format fd (printDyn ps) args = .ok (ch! "**ali|") := by
  intro d ps args
  have hw : WellFormedDyn ps := by
    refine ⟨(by decide : 0 < 2 ^ 31), ?_, by decide, trivial⟩
    rintro u ⟨⟩
    refine ⟨?_, ?_, ?_, ?_, ?_, ?_, ?_, ?_, ?_⟩
    · rintro f al ⟨⟩; decide
    · rintro f al ⟨⟩; decide
    · rintro c ⟨⟩
    · rintro w ⟨⟩
    · rintro r ⟨⟩; exact ident_example
    · rintro w ⟨⟩
    · rintro r ⟨⟩; exact (by decide : 1 < 2 ^ 31)
    · rintro c ⟨⟩
    · simp [DynText.print, d]
  refine ⟨rfl, hw, ?_⟩
  rw [C75_nested fd args ?_ ps hw]
  · rfl
  · intro a ha
    simp only [args, List.mem_cons, List.not_mem_nil, or_false] at ha
    rcases ha with rfl | rfl | rfl <;> trivial

example (fd : Spec → Nat → Except Err Str) :
    format fd (ch! "{0:{x}}") [.val (.ptr 1), .named (ch! "x") (.ptr 2)] = .error (.format (ch! "width is not integer"))
    ∧ format fd (ch! "{0:.{x}}") [.val (.ptr 1), .named (ch! "x") (.arg (.int 2))]
      = .error (.format (ch! "precision not allowed in pointer format specifier"))
    ∧ format fd (ch! "{0:.{x}}") [.val (.ptr 1), .named (ch! "x") (.arg (.int (-2)))]
      = .error (.format (ch! "negative precision"))
    ∧ format fd (ch! "{:{x}}") [.val (.ptr 1), .named (ch! "x") (.arg (.int 9))]
      = .error (.format (ch! "cannot switch from automatic to manual argument indexing"))
    ∧ format fd (ch! "{0:{}}") [.val (.ptr 1), .named (ch! "x") (.arg (.int 9))]
      = .error (.format (ch! "cannot switch from manual to automatic argument indexing"))
    ∧ format fd (ch! "{0:{y}}") [.val (.ptr 1), .named (ch! "x") (.arg (.int 9))]
      = .error (.format (ch! "argument not found")) := ⟨rfl, rfl, rfl, rfl, rfl, rfl⟩

end Blackhole.FmtArgs
