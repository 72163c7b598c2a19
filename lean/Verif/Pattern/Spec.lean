import Verif.Pattern.Model
import Verif.Fmt.Spec

/-! # What patterns mean -/

namespace Blackhole.Pattern

open Fmt (escapeText SpecText)

/-- A piece of a pattern: literal text, or a placeholder with an optional specification. -/
inductive Piece where
  | text (s : Str)
  | hole (name : Str) (spec : Option Str)
  deriving DecidableEq, Repr

/-- How a piece is written: braces in text are doubled. -/
def Piece.print : Piece → Str
  | .text s => escapeText s
  | .hole name none => ['{'] ++ name ++ ['}']
  | .hole name (some spec) => ['{'] ++ name ++ [':'] ++ spec ++ ['}']

def printAll : List Piece → Str
  | [] => []
  | p :: ps => p.print ++ printAll ps

/-- Every closing brace has its opening brace before it, and every opening brace is closed. -/
def Balanced (s : Str) : Prop :=
  (∀ p, p <+: s → p.count '}' ≤ p.count '{') ∧ s.count '}' = s.count '{'

/-- Letters, digits, underscores and dots. -/
def NameChar (c : Char) : Prop :=
  ('a' ≤ c ∧ c ≤ 'z') ∨ ('A' ≤ c ∧ c ≤ 'Z') ∨ ('0' ≤ c ∧ c ≤ '9') ∨ c = '_' ∨ c = '.'

def Piece.Valid : Piece → Prop
  | .text s => s ≠ []
  | .hole name spec => (∀ c ∈ name, NameChar c) ∧ ∀ b, spec = some b → Balanced b

def Piece.isText : Piece → Bool
  | .text _ => true
  | .hole _ _ => false

/-- Pieces are valid and no two texts are neighbours. -/
def Normal : List Piece → Prop
  | [] => True
  | [p] => p.Valid
  | p :: q :: ps => p.Valid ∧ ¬ (p.isText ∧ q.isText) ∧ Normal (q :: ps)

/-- All results in order, or the first error. -/
def inOrder {ε α : Type} : List (Except ε (List α)) → Except ε (List α)
  | [] => .ok []
  | .error e :: _ => .error e
  | .ok a :: rs =>
    match inOrder rs with
    | .error e => .error e
    | .ok as => .ok (a ++ as)

/-- The names with a meaning of their own. -/
def builtin : List Str :=
  [ch! "message", ch! "process", ch! "thread", ch! "severity", ch! "timestamp", ch! "..."]

/-! ## Extensions -/

/-- A piece of the item pattern of the leftover placeholder: text, the name or the value of the attribute. -/
inductive ItemPiece where
  | text (s : Str)
  | name (spec : Option Str)
  | value (spec : Option Str)
  deriving DecidableEq, Repr

def printKey (key : Str) : Option Str → Str
  | none => ['{'] ++ key ++ ['}']
  | some s => ['{'] ++ key ++ [':'] ++ s ++ ['}']

def ItemPiece.print : ItemPiece → Str
  | .text s => escapeText s
  | .name spec => printKey (ch! "name") spec
  | .value spec => printKey (ch! "value") spec

def printItems : List ItemPiece → Str
  | [] => []
  | p :: ps => p.print ++ printItems ps

/-- `[align][width]type`. -/
structure ShortSpec where
  align : Option Char := none
  width : Option Nat := none
  type : Char

def widthText : Option Nat → Str
  | none => []
  | some w => Nat.toDigits 10 w

def ShortSpec.print (t : ShortSpec) : Str := t.align.toList ++ (widthText t.width ++ [t.type])

def ShortSpec.Valid (t : ShortSpec) (types : List Char) : Prop :=
  (∀ c, t.align = some c → c = '<' ∨ c = '^' ∨ c = '>') ∧ t.type ∈ types

/-- Text is not empty; specifications are `[align][width]` and `s` or `d`. -/
def ItemPiece.Valid : ItemPiece → Prop
  | .text s => s ≠ []
  | .name spec | .value spec => ∀ s, spec = some s → ∃ t : ShortSpec, t.Valid ['s', 'd'] ∧ s = t.print

def ItemPiece.isText : ItemPiece → Bool
  | .text _ => true
  | _ => false

def NormalItems : List ItemPiece → Prop
  | [] => True
  | [p] => p.Valid
  | p :: q :: ps => p.Valid ∧ ¬ (p.isText ∧ q.isText) ∧ NormalItems (q :: ps)

/-- What the pieces mean. -/
def ItemPiece.item : ItemPiece → Item
  | .text s => .literal s
  | .name spec => .name (spec.getD [])
  | .value spec => .value (spec.getD [])

end Blackhole.Pattern

namespace Blackhole.Pattern

/-- The ways in which a pattern can go wrong at some point: a lone closing brace, a placeholder that is not closed, a
character that no name contains, a specification that is not closed. -/
inductive Bad : Str → Prop
  | loneClose (r : Str) : r.head? ≠ some '}' → Bad ('}' :: r)
  | unclosed (name : Str) : (∀ c ∈ name, NameChar c) → Bad ('{' :: name)
  | badName (name : Str) (c : Char) (r : Str) : (∀ c ∈ name, NameChar c) → ¬ NameChar c → c ≠ ':' → c ≠ '}' →
      (name = [] → c ≠ '{') → Bad ('{' :: (name ++ c :: r))
  | unclosedSpec (name spec : Str) : (∀ c ∈ name, NameChar c) → (∀ p, p <+: spec → p.count '}' ≤ p.count '{') →
      Bad ('{' :: (name ++ ':' :: spec))

end Blackhole.Pattern

namespace Blackhole.Pattern

/-- The specifications that an attribute with a default takes:
`[[fill]align][#][0][width][.precision][type]` with an alignment other than `=` and one of the types s, d, f, x. -/
structure DefaultSpec (t : Fmt.SpecText) : Prop where
  valid : t.Valid
  sign : t.sign = none
  align : ∀ f, t.align ≠ some (f, .numeric)
  type : ∀ c, t.type = some c → c = 's' ∨ c = 'd' ∨ c = 'f' ∨ c = 'x'

end Blackhole.Pattern
