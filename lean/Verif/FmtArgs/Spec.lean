import Verif.FmtArgs.Model
import Verif.Fmt.Spec

/-! # What arguments of messages are expected to do -/

namespace Blackhole.FmtArgs

open Fmt (Err Spec SpecText Arg escapeText meaningOf layout intDigits signText refusal letter)

/-! ## Finding arguments -/

/-- The value of what is passed, named or not. -/
def Passed.value : Passed → Val
  | .val v => v
  | .named _ v => v

/-- The value of the first argument of a name. -/
def firstNamed (args : List Passed) (name : Str) : Option Val :=
  match args with
  | [] => none
  | .named n v :: args => if n = name then some v else firstNamed args name
  | .val _ :: args => firstNamed args name

/-! ## Format strings with names -/

/-- How a field says which argument it takes. -/
inductive Ref where
  | auto
  | index (i : Nat)
  | name (s : Str)

inductive Piece where
  | text (s : Str)
  | field (ref : Ref) (spec : Option SpecText)

def Ref.print : Ref → Str
  | .auto => []
  | .index i => Nat.toDigits 10 i
  | .name s => s

def Piece.print : Piece → Str
  | .text s => escapeText s
  | .field ref none => '{' :: (ref.print ++ ['}'])
  | .field ref (some t) => '{' :: (ref.print ++ (':' :: (t.print ++ ['}'])))

def printAll : List Piece → Str
  | [] => []
  | p :: ps => p.print ++ printAll ps

/-- The argument that a field means, where `i` fields came before it. -/
def Ref.find (args : List Passed) (i : Nat) : Ref → Except Str Val
  | .auto => at? i
  | .index j => at? j
  | .name s =>
    match firstNamed args s with
    | some v => .ok v
    | none => .error (ch! "argument not found")
where
  at? (j : Nat) : Except Str Val :=
    match args[j]? with
    | some a => .ok a.value
    | none => .error (ch! "argument index out of range")

/-- The text of a value in a field. Objects of user types are written as the strings that they print; pointers as `0x`
and lower case hexadecimal digits; codes of `unsigned char` are not negative. -/
def written (fd : Spec → Nat → Except Err Str) (spec : Spec) : Val → Except Err Str
  | .arg a => Fmt.writeArg fd spec a
  | .custom text => Fmt.writeArg fd spec (.str text ['\x00'])
  | .uchar c =>
    match spec.type with
    | none => Fmt.writeArg fd spec (.char c)
    | some t =>
      if t = 'c' then Fmt.writeArg fd spec (.char c)
      else
        match intDigits spec c.toNat with
        | some (pre, ds) => .ok (layout spec (signText spec 0 ++ pre) ds)
        | none => .error (refusal t (ch! "char"))
  | .ptr n =>
    if spec.type = none ∨ spec.type = some 'p' then .ok (layout spec (ch! "0x") (Nat.toDigits 16 n))
    else .error (refusal (spec.type.getD ' ') (ch! "pointer"))

/-- The expected output: text as it is, and each field replaced by its argument. -/
def expand (fd : Spec → Nat → Except Err Str) (args : List Passed) : (i : Nat) → List Piece → Except Err Str
  | _, [] => .ok []
  | i, .text s :: ps => (expand fd args i ps).map (s ++ ·)
  | i, .field ref spec :: ps =>
    match ref.find args i with
    | .error m => .error (.format m)
    | .ok v =>
      match written fd (meaningOf spec) v with
      | .error e => .error e
      | .ok out => (expand fd args (i + 1) ps).map (out ++ ·)

/-- Names are those of variables of C. -/
structure Ident (s : Str) : Prop where
  nonempty : s ≠ []
  chars : ∀ c ∈ s, letter c ∨ c = '_' ∨ ('0' ≤ c ∧ c ≤ '9')
  first : ∀ c, s.head? = some c → ¬ ('0' ≤ c ∧ c ≤ '9')

def Ref.Valid : Ref → Prop
  | .auto => True
  | .index i => i < 2 ^ 31
  | .name s => Ident s

def WellFormed : List Piece → Prop
  | [] => True
  | .text s :: ps => '\x00' ∉ s ∧ WellFormed ps
  | .field ref spec :: ps => ref.Valid ∧ (∀ t, spec = some t → t.Valid) ∧ WellFormed ps

/-- Addresses have 64 bits, codes of `unsigned char` have 8. -/
def Val.InRange : Val → Prop
  | .ptr n => n < 2 ^ 64
  | .uchar c => c.toNat < 256
  | _ => True

/-- The specifications that a value takes: those of numbers and strings as before; pointers take neither what is for
numbers nor a precision. -/
def Fits (t : SpecText) : Val → Prop
  | .arg a => t.Fits a
  | .custom text => t.Fits (.str text ['\x00'])
  | .uchar c => t.Fits (.char c)
  | .ptr _ => (∀ f, t.align ≠ some (f, .numeric)) ∧ t.sign = none ∧ t.hash = false ∧ t.zero = false ∧ t.precision = none

def Suits (args : List Passed) : Nat → List Piece → Prop
  | _, [] => True
  | i, .text _ :: ps => Suits args i ps
  | i, .field ref spec :: ps => (∀ v t, ref.find args i = .ok v → spec = some t → Fits t v) ∧ Suits args (i + 1) ps

/-- Whether a field says which argument it takes. -/
def Ref.says : Ref → Bool
  | .auto => false
  | .index _ => true
  | .name _ => true

/-- Either no field says which argument it takes, or every field does. -/
def Chosen (manual : Bool) : List Piece → Prop
  | [] => True
  | .text _ :: ps => Chosen manual ps
  | .field ref _ :: ps => ref.says = manual ∧ Chosen manual ps

/-! ## Values -/

/-- The range of an integer type. -/
def IntType.holds : IntType → Int → Prop
  | .short, z => -2 ^ 15 ≤ z ∧ z < 2 ^ 15
  | .ushort, z => 0 ≤ z ∧ z < 2 ^ 16
  | .int, z => -2 ^ 31 ≤ z ∧ z < 2 ^ 31
  | .uint, z => 0 ≤ z ∧ z < 2 ^ 32
  | .long, z => -2 ^ 63 ≤ z ∧ z < 2 ^ 63
  | .llong, z => -2 ^ 63 ≤ z ∧ z < 2 ^ 63
  | .ulong, z => 0 ≤ z ∧ z < 2 ^ 64
  | .ullong, z => 0 ≤ z ∧ z < 2 ^ 64

/-- The decimal text of an integer. -/
def decimal (z : Int) : Str := (if z < 0 then ['-'] else []) ++ Nat.toDigits 10 z.natAbs

/-- What `{}` is expected to write of an argument. -/
def CArg.text (fd : Spec → Nat → Except Err Str) : CArg → Except Err Str
  | .integer _ z => .ok (decimal z)
  | .convertible z => .ok (decimal z)
  | .bool true => .ok (ch! "true")
  | .bool false => .ok (ch! "false")
  | .char c => .ok [c]
  | .schar c => .ok [c]
  | .uchar c => .ok [c]
  | .double bits => fd {} bits
  | .cstr s => .ok s
  | .string s => .ok s
  | .pointer n => .ok (ch! "0x" ++ Nat.toDigits 16 n)
  | .printable text => .ok text

/-- Values of their types: C strings end before their NUL. -/
def CArg.Valid : CArg → Prop
  | .integer t z => t.holds z
  | .convertible z => IntType.ulong.holds z ∨ IntType.long.holds z
  | .uchar c => c.toNat < 256
  | .cstr s => '\x00' ∉ s
  | .pointer n => n < 2 ^ 64
  | _ => True

/-- An argument as one that was already covered: an object of a user type is the string that it prints. -/
def Val.known : Val → Option Arg
  | .arg a => some a
  | .custom text => some (.str text ['\x00'])
  | .uchar _ => none
  | .ptr _ => none

end Blackhole.FmtArgs
