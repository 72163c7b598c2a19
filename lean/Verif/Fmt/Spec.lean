import Verif.Fmt.Model

/-! # What formatting is expected to do

Digits are those of `Nat.toDigits`, the standard library's positional notation. -/

namespace Blackhole.Fmt

/-- The sign of a number: a minus if it is negative, otherwise what the specification asks for. -/
def signText (spec : Spec) (z : Int) : Str :=
  if z < 0 then ['-'] else if spec.sign then (if spec.plus then ['+'] else [' ']) else []

/-- The prefix and the digits of an absolute value in the base that the type letter names; none if it names none. -/
def intDigits (spec : Spec) (n : Nat) : Option (Str × Str) :=
  let pre (s : Str) : Str := if spec.hash then s else []
  match spec.type with
  | none | some 'd' => some ([], Nat.toDigits 10 n)
  | some 'x' => some (pre (ch! "0x"), Nat.toDigits 16 n)
  | some 'X' => some (pre (ch! "0X"), (Nat.toDigits 16 n).map Char.toUpper)
  | some 'b' => some (pre (ch! "0b"), Nat.toDigits 2 n)
  | some 'B' => some (pre (ch! "0B"), Nat.toDigits 2 n)
  | some 'o' => some (pre (ch! "0"), Nat.toDigits 8 n)
  | some _ => none

/-- The number that is the code of a character of type `char`: codes from 128 on are negative, 256 less. -/
def codeOf (c : Char) : Int := if c < '\x80' then c.toNat else -256 + c.toNat

/-- How a complaint shows a character: as it is if it can be printed, otherwise its code in at least two hexadecimal
digits; codes from 128 on are those of negative numbers of 32 bits. -/
def codeText (c : Char) : Str :=
  if ' ' ≤ c ∧ c < '\x7f' then [c]
  else if c.toNat < 16 then ch! "\\x0" ++ [Nat.digitChar c.toNat]
  else if c.toNat < 128 then ch! "\\x" ++ Nat.toDigits 16 c.toNat
  else ch! "\\x" ++ Nat.toDigits 16 (2 ^ 32 - 256 + c.toNat)

/-- The complaint about a conversion that a type does not have. -/
def refusal (c : Char) (type : Str) : Err :=
  .format (ch! "unknown format code '" ++ codeText c ++ ch! "' for " ++ type)

/-- The padding of a number to its width. -/
def layout (spec : Spec) (pre digits : Str) : Str :=
  let gap := spec.width - (pre.length + digits.length)
  let fill (n : Nat) : Str := List.replicate n spec.fill
  match spec.align with
  | .left => pre ++ digits ++ fill gap
  | .center => fill (gap / 2) ++ pre ++ digits ++ fill (gap - gap / 2)
  | .numeric => pre ++ fill gap ++ digits
  | .right | .default => fill gap ++ pre ++ digits

/-- A text is cut to the precision. -/
def cutText (spec : Spec) (s : Str) : Str :=
  match spec.precision with
  | none => s
  | some p => s.take p

/-- A text in a field: cut to the precision and padded to the width; on the left side of the field unless the alignment
says otherwise. -/
def textField (spec : Spec) (s : Str) : Str :=
  let gap := spec.width - (cutText spec s).length
  let fill (n : Nat) : Str := List.replicate n spec.fill
  match spec.align with
  | .right => fill gap ++ cutText spec s
  | .center => fill (gap / 2) ++ cutText spec s ++ fill (gap - gap / 2)
  | .left | .numeric | .default => cutText spec s ++ fill gap

/-! ## Reading numbers back -/

/-- The value of a digit. -/
def digitValue (c : Char) : Option Nat :=
  if '0' ≤ c ∧ c ≤ '9' then some (c.toNat - 48)
  else if 'a' ≤ c ∧ c ≤ 'f' then some (c.toNat - 87)
  else if 'A' ≤ c ∧ c ≤ 'F' then some (c.toNat - 55)
  else none

/-- The number that digits denote in a base, on top of what was read before. -/
def readDigits (base : Nat) : Nat → Str → Option Nat
  | acc, [] => some acc
  | acc, c :: cs =>
    match digitValue c with
    | none => none
    | some d => if d < base then readDigits base (acc * base + d) cs else none

/-- The integer that an optional minus and at least one digit denote. -/
def readInt (base : Nat) (s : Str) : Option Int :=
  let ds := if s.head? = some '-' then s.tail else s
  if ds = [] then none
  else (readDigits base 0 ds).map fun (n : Nat) => if s.head? = some '-' then -(n : Int) else (n : Int)

/-! ## Format strings -/

/-- A specification as the documentation describes it:
`[[fill]align][sign][#][0][width][.precision][type]`. -/
structure SpecText where
  align : Option (Option Char × Align) := none
  sign : Option Char := none
  hash : Bool := false
  zero : Bool := false
  width : Option Nat := none
  precision : Option Nat := none
  type : Option Char := none

/-- The character of an alignment. -/
def alignChar : Align → Char
  | .left => '<'
  | .right => '>'
  | .center => '^'
  | _ => '='

/-- The text of a specification. -/
def SpecText.print (t : SpecText) : Str :=
  (match t.align with
    | none => []
    | some (f, al) => f.toList ++ [alignChar al])
  ++ (t.sign.toList
  ++ ((if t.hash then ['#'] else [])
  ++ ((if t.zero then ['0'] else [])
  ++ ((match t.width with
    | none => []
    | some w => Nat.toDigits 10 w)
  ++ ((match t.precision with
    | none => []
    | some p => '.' :: Nat.toDigits 10 p)
  ++ t.type.toList)))))

/-- What it means. -/
def SpecText.meaning (t : SpecText) : Spec where
  align := if t.zero then .numeric else match t.align with
    | none => .default
    | some (_, al) => al
  fill := if t.zero then '0' else match t.align with
    | some (some f, _) => f
    | _ => ' '
  width := match t.width with
    | none => 0
    | some w => w
  sign := t.sign = some '+' ∨ t.sign = some ' '
  plus := t.sign = some '+'
  minus := t.sign = some '-'
  hash := t.hash
  precision := t.precision
  type := t.type

def letter (c : Char) : Bool := ('a' ≤ c && c ≤ 'z') || ('A' ≤ c && c ≤ 'Z')

/-- The texts the documentation allows: the fill is not a brace, widths are positive and fit an `int`, the type is a
letter. -/
structure SpecText.Valid (t : SpecText) : Prop where
  align : ∀ f al, t.align = some (f, al) → al ≠ .default
  fill : ∀ f al, t.align = some (some f, al) → f ≠ '{' ∧ f ≠ '}' ∧ f ≠ '\x00'
  sign : ∀ c, t.sign = some c → c = '+' ∨ c = '-' ∨ c = ' '
  width : ∀ w, t.width = some w → 0 < w ∧ w < 2 ^ 31
  precision : ∀ p, t.precision = some p → p < 2 ^ 31
  type : ∀ c, t.type = some c → letter c
  nonempty : t.print ≠ []

/-- The specifications that an argument takes: sign, `#`, `0` and `=` are for numbers, the sign is for signed ones, a
precision is for anything but an integer. -/
structure SpecText.Fits (t : SpecText) (a : Arg) : Prop where
  numeric : ((∃ f, t.align = some (f, .numeric)) ∨ t.sign ≠ none ∨ t.hash ∨ t.zero) → a.isNumeric
  signed : t.sign ≠ none → (∀ n, a ≠ .uint n) ∧ ∀ n, a ≠ .ulong n
  precision : t.precision ≠ none → a.isInteger = false

/-- A piece of a format string: literal text, or a replacement field with an optional position and an optional
specification. -/
inductive Piece where
  | text (s : Str)
  | field (pos : Option Nat) (spec : Option SpecText)

/-- Braces in literal text are written twice. -/
def escapeText (s : Str) : Str := s.flatMap fun c => if c = '{' ∨ c = '}' then [c, c] else [c]

def Piece.print : Piece → Str
  | .text s => escapeText s
  | .field pos spec => '{' :: ((match pos with
      | none => []
      | some i => Nat.toDigits 10 i)
    ++ ((match spec with
      | none => []
      | some t => ':' :: t.print) ++ ['}']))

def printAll : List Piece → Str
  | [] => []
  | p :: ps => p.print ++ printAll ps

def meaningOf : Option SpecText → Spec
  | none => {}
  | some t => t.meaning

/-- The expected output: text as it is, and each field replaced by its argument, where fields without a position take
the arguments from the `i`-th on in order. -/
def expand (fd : Spec → Nat → Except Err Str) (args : List Arg) : (i : Nat) → List Piece → Except Err Str
  | _, [] => .ok []
  | i, .text s :: ps => (expand fd args i ps).map (s ++ ·)
  | i, .field pos spec :: ps =>
    match args[pos.getD i]? with
    | none => .error (.format (ch! "argument index out of range"))
    | some a =>
      match writeArg fd (meaningOf spec) a with
      | .error e => .error e
      | .ok out => (expand fd args (i + 1) ps).map (out ++ ·)

/-- Every piece is well formed. -/
def WellFormed : List Piece → Prop
  | [] => True
  | .text s :: ps => '\x00' ∉ s ∧ WellFormed ps
  | .field pos spec :: ps => (∀ i, pos = some i → i < 2 ^ 31) ∧ (∀ t, spec = some t → t.Valid) ∧ WellFormed ps

/-- Every specification suits its argument. -/
def Suits (args : List Arg) : Nat → List Piece → Prop
  | _, [] => True
  | i, .text _ :: ps => Suits args i ps
  | i, .field pos spec :: ps => (∀ a t, args[pos.getD i]? = some a → spec = some t → t.Fits a) ∧ Suits args (i + 1) ps

/-- Fields are numbered throughout, or nowhere. -/
def Numbered (manual : Bool) : List Piece → Prop
  | [] => True
  | .text _ :: ps => Numbered manual ps
  | .field pos _ :: ps => pos.isSome = manual ∧ Numbered manual ps

end Blackhole.Fmt
