import Verif.Config.Model

/-!
# What a configuration text says

The grammar of RFC 8259, with comments wherever white space may stand and with a comma allowed after the last element of an
array and the last member of an object. It does not use the parser. Texts are bytes (`Char`s below 256), as everywhere in
this model.
-/

namespace Blackhole.JsonRead

open Config (Json)

/-- White space and comments. -/
inductive Gap : Str → Prop
  | none : Gap []
  | space {c : Char} {g : Str} : c ∈ [' ', '\t', '\n', '\r'] → Gap g → Gap (c :: g)
  | line {body g : Str} : '\n' ∉ body → '\x00' ∉ body → Gap g → Gap ('/' :: '/' :: (body ++ '\n' :: g))
  | block {body g : Str} : ¬ ['*', '/'] <:+: body → '\x00' ∉ body → Gap g → Gap ('/' :: '*' :: (body ++ '*' :: '/' :: g))

/-- White space and comments at the end of the text: the last line may lack its end. -/
inductive Tail : Str → Prop
  | gap {g : Str} : Gap g → Tail g
  | line {g body : Str} : Gap g → '\n' ∉ body → '\x00' ∉ body → Tail (g ++ '/' :: '/' :: body)

/-- The value of a hexadecimal digit. -/
def HexDigit (c : Char) (i : Nat) : Prop :=
  (ch! "0123456789abcdef")[i]? = some c ∨ (ch! "0123456789ABCDEF")[i]? = some c

/-- The value of four hexadecimal digits. -/
inductive Hex : Str → Nat → Prop
  | digits {a b c d : Char} {i j k l : Nat} : HexDigit a i → HexDigit b j → HexDigit c k → HexDigit d l →
      Hex [a, b, c, d] (4096 * i + 256 * j + 16 * k + l)

/-- The bytes of a character in UTF-8 (by Lean's own function). -/
def bytes (c : Char) : Str := (String.utf8EncodeChar c).map (fun b => Char.ofNat b.toNat)

/-- `Chars s t`: between the quotes of a string, `t` stands for the bytes `s`. An escaped second half of a surrogate pair
without a first one stands for no character; the grammar allows it, and here it is encoded as if it were one. -/
inductive Chars : Str → Str → Prop
  | nil : Chars [] []
  | plain {c : Char} {s t : Str} : c ≠ '"' → c ≠ '\\' → 0x20 ≤ c.toNat → Chars s t → Chars (c :: s) (c :: t)
  | short {e c : Char} {s t : Str} :
      (e, c) ∈ [('"', '"'), ('\\', '\\'), ('/', '/'), ('b', '\x08'), ('f', '\x0c'), ('n', '\n'), ('r', '\r'), ('t', '\t')] →
      Chars s t → Chars (c :: s) ('\\' :: e :: t)
  | unit {h s t : Str} {u : Nat} : Hex h u → (u < 0xD800 ∨ 0xDFFF < u) → Chars s t →
      Chars (bytes (Char.ofNat u) ++ s) ('\\' :: 'u' :: (h ++ t))
  | pair {h l s t : Str} {u v : Nat} : Hex h u → Hex l v → 0xD800 ≤ u ∧ u ≤ 0xDBFF → 0xDC00 ≤ v ∧ v ≤ 0xDFFF → Chars s t →
      Chars (bytes (Char.ofNat (0x10000 + 0x400 * (u - 0xD800) + (v - 0xDC00))) ++ s)
        ('\\' :: 'u' :: (h ++ '\\' :: 'u' :: (l ++ t)))
  | half {h s t : Str} {u : Nat} : Hex h u → 0xDC00 ≤ u ∧ u ≤ 0xDFFF → Chars s t →
      Chars (Char.ofNat 0xED :: Char.ofNat (0xB0 + (u - 0xDC00) / 64) :: Char.ofNat (0x80 + u % 64) :: s)
        ('\\' :: 'u' :: (h ++ t))

/-- A decimal digit. -/
def Digit (c : Char) : Prop := c ∈ ch! "0123456789"

/-- Decimal digits, at least one. -/
def Digits (s : Str) : Prop := s ≠ [] ∧ ∀ c ∈ s, Digit c

/-- The digits before the point: no needless zeros. -/
def Whole (s : Str) : Prop := Digits s ∧ (s.head? = some '0' → s = ['0'])

/-- The number that decimal digits denote. -/
def decimalOf (s : Str) : Nat := s.foldl (fun n c => 10 * n + (c.toNat - '0'.toNat)) 0

/-- A fraction, or none. -/
inductive Fraction : Str → Prop
  | none : Fraction []
  | some {ds : Str} : Digits ds → Fraction ('.' :: ds)

/-- An exponent, or none. -/
inductive Exponent : Str → Prop
  | none : Exponent []
  | some {e : Char} {sign ds : Str} : e ∈ ['e', 'E'] → sign ∈ [[], ['+'], ['-']] → Digits ds → Exponent (e :: (sign ++ ds))

/-- The integer that a sign and digits denote. -/
def integerOf (neg : Bool) (ds : Str) : Int := if neg then -(decimalOf ds : Int) else decimalOf ds

/-- The integers that are kept as integers: those of 64 bits, with or without a sign. -/
def Fits (z : Int) : Prop := -2 ^ 63 ≤ z ∧ z < 2 ^ 64

/-- What a piece of text can stand for: a value, the elements of an array or the members of an object. -/
inductive Part where
  | value (v : Json)
  | elements (vs : List Json)
  | members (ms : List (Str × Json))

/-- `Reads toDouble p t`: the text `t` stands for `p`. `toDouble` says which double a number in decimal notation is, unless
it is too large for one. -/
inductive Reads (toDouble : Str → Option Nat) : Part → Str → Prop
  | null : Reads toDouble (.value .null) (ch! "null")
  | true : Reads toDouble (.value (.bool true)) (ch! "true")
  | false : Reads toDouble (.value (.bool false)) (ch! "false")
  | int {neg : Bool} {ds : Str} : Whole ds → Fits (integerOf neg ds) →
      Reads toDouble (.value (.int (integerOf neg ds))) ((if neg then ['-'] else []) ++ ds)
  | double {neg : Bool} {ds f e : Str} {bits : Nat} : Whole ds → Fraction f → Exponent e →
      (f ≠ [] ∨ e ≠ [] ∨ ¬ Fits (integerOf neg ds)) →
      toDouble ((if neg then ['-'] else []) ++ ds ++ f ++ e) = some bits →
      Reads toDouble (.value (.double bits)) ((if neg then ['-'] else []) ++ ds ++ f ++ e)
  | str {s t : Str} : Chars s t → Reads toDouble (.value (.str s)) ('"' :: (t ++ ['"']))
  | noElements {g : Str} : Gap g → Reads toDouble (.value (.arr [])) ('[' :: (g ++ [']']))
  | arr {g t : Str} {vs : List Json} : Gap g → Reads toDouble (.elements vs) t →
      Reads toDouble (.value (.arr vs)) ('[' :: (g ++ t ++ [']']))
  | noMembers {g : Str} : Gap g → Reads toDouble (.value (.obj [])) ('{' :: (g ++ ['}']))
  | obj {g t : Str} {ms : List (Str × Json)} : Gap g → Reads toDouble (.members ms) t →
      Reads toDouble (.value (.obj ms)) ('{' :: (g ++ t ++ ['}']))
  | lastElement {v : Json} {t g : Str} : Reads toDouble (.value v) t → Gap g → Reads toDouble (.elements [v]) (t ++ g)
  | lastElementComma {v : Json} {t g g' : Str} : Reads toDouble (.value v) t → Gap g → Gap g' →
      Reads toDouble (.elements [v]) (t ++ g ++ ',' :: g')
  | element {v : Json} {vs : List Json} {t g g' ts : Str} : Reads toDouble (.value v) t → Gap g → Gap g' →
      Reads toDouble (.elements vs) ts → Reads toDouble (.elements (v :: vs)) (t ++ g ++ ',' :: (g' ++ ts))
  | lastMember {k kt g1 g2 t g : Str} {v : Json} : Chars k kt → Gap g1 → Gap g2 → Reads toDouble (.value v) t → Gap g →
      Reads toDouble (.members [(k, v)]) ('"' :: (kt ++ '"' :: (g1 ++ ':' :: (g2 ++ t ++ g))))
  | lastMemberComma {k kt g1 g2 t g g' : Str} {v : Json} : Chars k kt → Gap g1 → Gap g2 → Reads toDouble (.value v) t →
      Gap g → Gap g' →
      Reads toDouble (.members [(k, v)]) ('"' :: (kt ++ '"' :: (g1 ++ ':' :: (g2 ++ t ++ g ++ ',' :: g'))))
  | member {k kt g1 g2 t g g' ts : Str} {v : Json} {ms : List (Str × Json)} : Chars k kt → Gap g1 → Gap g2 →
      Reads toDouble (.value v) t → Gap g → Gap g' → Reads toDouble (.members ms) ts →
      Reads toDouble (.members ((k, v) :: ms))
        ('"' :: (kt ++ '"' :: (g1 ++ ':' :: (g2 ++ t ++ g ++ ',' :: (g' ++ ts)))))

/-- The whole text stands for a document. -/
def Text (toDouble : Str → Option Nat) (v : Json) (text : Str) : Prop :=
  ∃ g t g', text = g ++ t ++ g' ∧ Gap g ∧ Reads toDouble (.value v) t ∧ Tail g'

end Blackhole.JsonRead
