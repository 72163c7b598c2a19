import Verif.StringFmt.Model
import Verif.Pattern.Spec

/-! # What the string formatter is expected to print -/

namespace Blackhole.StringFmt

open Rec Pattern

/-- A formatter can be made from the pattern, and this is its outcome for the record. -/
def Prints (cd : Str → Option Nat) (sm : SevMap) (env : Env) (clock : Clock) (pattern : Str) (r : Record)
    (out : Except Exc Str) : Prop :=
  ∃ f, Formatter.make cd pattern sm = .ok f ∧ f.format env clock r = out

/-- A number as people write it. -/
def decimalText (z : Int) : Str := (if z < 0 then ['-'] else []) ++ Nat.toDigits 10 z.natAbs

/-- The text is followed by a NUL and contains none: a view of a `std::string` or of a literal. -/
def Terminated (v : View) (s : Str) : Prop := '\x00' ∉ s ∧ ∃ rest, v = .at s ('\x00' :: rest)

/-- The text of an attribute's value. -/
inductive Shows (env : Env) : Value → Str → Prop
  | null : Shows env .null (ch! "none")
  | true : Shows env (.bool true) (ch! "true")
  | false : Shows env (.bool false) (ch! "false")
  | sint {z : Int} (h1 : -2 ^ 63 ≤ z) (h2 : z < 2 ^ 63) : Shows env (.sint z) (decimalText z)
  | uint {n : Nat} (h : n < 2 ^ 64) : Shows env (.uint n) (Nat.toDigits 10 n)
  | double {bits : Nat} {s : Str} (h : env.fd {} bits = .ok s) : Shows env (.double bits) s
  | string {v : View} {s : Str} (h : Terminated v s) : Shows env (.string v) s
  | function {s : Str} : Shows env (.function (.ok s)) s

/-- The argument that an attribute's value is formatted as. -/
inductive ValueArg : Value → Fmt.Arg → Prop
  | null : ValueArg .null (.cstr (ch! "none"))
  | bool (b : Bool) : ValueArg (.bool b) (.bool b)
  | sint (z : Int) : ValueArg (.sint z) (.long z)
  | uint (n : Nat) : ValueArg (.uint n) (.ulong n)
  | double (bits : Nat) : ValueArg (.double bits) (.double bits)
  /-- A C string. -/
  | string (s behind : Str) : ValueArg (.string (.at s behind)) (.str [] (s ++ behind))

/-- A default that is no integer of 64 bits: too large, too small, or with a character that is not in a number. -/
def NoInteger (d : Str) : Prop :=
  (∃ n : Nat, 2 ^ 63 ≤ n ∧ d = Nat.toDigits 10 n ∨ 2 ^ 63 < n ∧ d = '-' :: Nat.toDigits 10 n)
    ∨ ∃ c ∈ d, Fmt.isDigit c = false ∧ c ≠ '-' ∧ c ≠ '+'

/-- The argument that a default is formatted as; `cd` reads floating point numbers. -/
inductive DefaultArg (cd : Str → Option Nat) (d : Str) : Fmt.Arg → Prop
  | int (n : Nat) : n < 2 ^ 63 → d = Nat.toDigits 10 n → DefaultArg cd d (.long n)
  | neg (n : Nat) : n ≤ 2 ^ 63 → d = '-' :: Nat.toDigits 10 n → DefaultArg cd d (.long (-n))
  | double {bits : Nat} : NoInteger d → cd d = some bits → DefaultArg cd d (.double bits)
  | text : NoInteger d → cd d = none → DefaultArg cd d (.str d ['\x00'])

/-- What the formatter makes of the library's outcome. -/
def outcome : Except Fmt.Err Str → Except Exc Str
  | .ok s => .ok s
  | .error e => .error (.fmt e)

/-- Text in a field of a given width. -/
def field (t : ShortSpec) (s : Str) : Str :=
  let gap := t.width.getD 0 - s.length
  match t.align with
  | some '>' => List.replicate gap ' ' ++ s
  | some '^' => List.replicate (gap / 2) ' ' ++ s ++ List.replicate (gap - gap / 2) ' '
  | _ => s ++ List.replicate gap ' '

/-- The width is positive and fits an `int`. -/
def WidthOk (t : ShortSpec) : Prop := ∀ w, t.width = some w → 0 < w ∧ w < 2 ^ 31

/-- What a piece of an item pattern prints for an attribute. -/
inductive ItemShows (env : Env) (a : View × Value) : ItemPiece → Str → Prop
  | text (s : Str) : ItemShows env a (.text s) s
  | name : a.1.text ≠ [] → ItemShows env a (.name none) a.1.text
  | value {s : Str} : Shows env a.2 s → ItemShows env a (.value none) s
  | nameIn (t : ShortSpec) : a.1.text ≠ [] → t.Valid ['s'] → WidthOk t →
      ItemShows env a (.name (some t.print)) (field t a.1.text)
  | valueIn (t : ShortSpec) {v : View} {s : Str} : a.2 = .string v → Terminated v s → t.Valid ['s'] → WidthOk t →
      ItemShows env a (.value (some t.print)) (field t s)

end Blackhole.StringFmt
