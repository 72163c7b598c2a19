import Verif.Json.Model
import Verif.StringFmt.Spec

/-! # What is expected of the JSON tree -/

namespace Blackhole.Json

open Rec

/-! ## Pointers (RFC 6901) -/

/-- A name as it is written in a pointer. -/
def escapeToken (t : Str) : Str := t.flatMap fun c => if c = '~' then ['~', '0'] else if c = '/' then ['~', '1'] else [c]

/-- The pointer to the place that is reached from the root through the given names. -/
def pointerText (names : List Str) : Str := names.flatMap fun t => '/' :: escapeToken t

/-- The bytes of a character in UTF-8. -/
def utf8 (c : Char) : List Nat :=
  let n := c.toNat
  if n < 0x80 then [n]
  else if n < 0x800 then [0xC0 + n / 0x40, 0x80 + n % 0x40]
  else if n < 0x10000 then [0xE0 + n / 0x1000, 0x80 + n / 0x40 % 0x40, 0x80 + n % 0x40]
  else [0xF0 + n / 0x40000, 0x80 + n / 0x1000 % 0x40, 0x80 + n / 0x40 % 0x40, 0x80 + n % 0x40]

/-- A text of Unicode characters as the bytes that C++ sees. -/
def bytesOf (t : Str) : Str := t.flatMap fun c => (utf8 c).map Char.ofNat

/-- The value of a hexadecimal digit. -/
def hexValue (c : Char) : Option Nat :=
  if '0' ≤ c ∧ c ≤ '9' then some (c.toNat - '0'.toNat)
  else if 'A' ≤ c ∧ c ≤ 'F' then some (c.toNat - 'A'.toNat + 10)
  else if 'a' ≤ c ∧ c ≤ 'f' then some (c.toNat - 'a'.toNat + 10)
  else none

/-- Bytes written as `%XX`, with large or small letters. -/
inductive PercentBytes : List Nat → Str → Prop
  | nil : PercentBytes [] []
  | cons {b x y : Nat} {hi lo : Char} {bs : List Nat} {s : Str} : hexValue hi = some x → hexValue lo = some y →
    b = x * 16 + y → PercentBytes bs s → PercentBytes (b :: bs) ('%' :: hi :: lo :: s)

/-- A character in the fragment of a URI: letters, digits and `-._~` may be written as they are. -/
inductive FragmentChar (c : Char) : Str → Prop
  | plain : c.isAlphanum ∨ c ∈ ['-', '.', '_', '~'] → FragmentChar c [c]
  | percent {s : Str} : PercentBytes (utf8 c) s → FragmentChar c s

/-- A name as it is written in a pointer in the fragment of a URI. -/
inductive FragmentName : Str → Str → Prop
  | nil : FragmentName [] []
  | tilde {tilde t s : Str} : FragmentChar '~' tilde → FragmentName t s → FragmentName ('~' :: t) (tilde ++ '0' :: s)
  | slash {tilde t s : Str} : FragmentChar '~' tilde → FragmentName t s → FragmentName ('/' :: t) (tilde ++ '1' :: s)
  | char {c : Char} {w t s : Str} : c ≠ '~' → c ≠ '/' → FragmentChar c w → FragmentName t s → FragmentName (c :: t) (w ++ s)

/-- The names, each after a `/`. -/
inductive FragmentNames : List Str → Str → Prop
  | nil : FragmentNames [] []
  | cons {t s rest : Str} {names : List Str} : FragmentName t s → FragmentNames names rest →
    FragmentNames (t :: names) ('/' :: (s ++ rest))

/-- The pointer refers to the place that is reached through the given names: it is written as a string, or as the fragment
of a URI (RFC 6901, sections 5 and 6). -/
inductive Points : Str → List Str → Prop
  | string (names : List Str) : Points (pointerText names) names
  | fragment {names : List Str} {s : Str} : FragmentNames names s → Points ('#' :: s) (names.map bytesOf)

/-- A name that is not an array index. -/
def NotIndex (t : Str) : Prop := t = [] ∨ (∃ c ∈ t, c.isDigit = false) ∨ (t.head? = some '0' ∧ t ≠ ['0'])

/-! ## Looking at a tree -/

/-- The first member with the name. -/
def child (k : Str) : List (Str × Tree) → Option Tree
  | [] => none
  | m :: ms => if m.1 = k then some m.2 else child k ms

/-- What is reached from a tree through names. -/
def Tree.at? : List Str → Tree → Option Tree
  | [], t => some t
  | k :: names, .obj ms =>
    match child k ms with
    | none => none
    | some t => t.at? names
  | _ :: _, _ => none

/-- The members of an object. -/
def members : Option Tree → List (Str × Tree)
  | some (.obj ms) => ms
  | _ => []

/-- The members of the object at a place. -/
def Tree.membersAt (names : List Str) (t : Tree) : List (Str × Tree) := members (t.at? names)

def leafOf (m : Str × Tree) : Option (Str × Leaf) :=
  match m.2 with
  | .leaf l => some (m.1, l)
  | _ => none

def groupOf (m : Str × Tree) : Option Str :=
  match m.2 with
  | .leaf _ => none
  | _ => some m.1

/-- The values in the object at a place, in order. -/
def Tree.valuesAt (names : List Str) (t : Tree) : List (Str × Leaf) := (t.membersAt names).filterMap leafOf

/-- The names of the objects and arrays in the object at a place. -/
def Tree.groupsAt (names : List Str) (t : Tree) : List Str := (t.membersAt names).filterMap groupOf

/-! ## Routing, renaming, formatting -/

/-- The pointer for a name: of the routes that list it the first one, in the order of the pointers, otherwise the default. -/
def routeText (d : Data) (name : Str) : Str :=
  match d.specified.find? fun r => decide (name ∈ r.2) with
  | some r => r.1
  | none => d.unspecified

/-- The name under which a field is written. -/
def shownAs (d : Data) (name : Str) : Str := (Tskv.lookup name d.mapping).getD name

/-- The value that is written for a field: as it is, or its text if there is a format for it. -/
def Shows (env : Env) (d : Data) (name : Str) (native : Leaf) (arg : Fmt.Arg) (l : Leaf) : Prop :=
  match Tskv.lookup name d.formatting with
  | none => l = native
  | some spec => ∃ s, env.write spec arg = .ok s ∧ l = .str s

/-- The value of an attribute, and its argument for the formatting library. The text of a function is not formatted. -/
inductive AttributeShows (env : Env) (d : Data) : View × Value → Str × Leaf → Prop
  | null {n l} : Shows env d n.text .null (.cstr (ch! "none")) l → AttributeShows env d (n, .null) (n.text, l)
  | bool {n b l} : Shows env d n.text (.bool b) (.bool b) l → AttributeShows env d (n, .bool b) (n.text, l)
  | sint {n z l} : Shows env d n.text (.int z) (.long z) l → AttributeShows env d (n, .sint z) (n.text, l)
  | uint {n} {u : Nat} {l} : Shows env d n.text (.int u) (.ulong u) l → AttributeShows env d (n, .uint u) (n.text, l)
  | double {n b l} : Shows env d n.text (.double b) (.double b) l → AttributeShows env d (n, .double b) (n.text, l)
  | string {n v l} : Shows env d n.text (.str v.text) v.data l → AttributeShows env d (n, .string v) (n.text, l)
  | function {n s} : AttributeShows env d (n, .function (.ok s)) (n.text, .str s)

/-- The value of the severity: its name if there is one, otherwise the number. -/
def SeverityShows (env : Env) (d : Data) (severity : Int) (l : Leaf) : Prop :=
  (∃ name, 0 ≤ severity ∧ d.severity[severity.toNat]? = some name
    ∧ Shows env d (ch! "severity") (.str name) (.str name ['\x00']) l)
  ∨ ((severity < 0 ∨ d.severity.length ≤ severity.toNat)
    ∧ Shows env d (ch! "severity") (.int severity) (.long severity) l)

/-- The value of the timestamp: the text of the configured pattern, in UTC, otherwise the microseconds. -/
def TimestampShows (env : Env) (clock : StringFmt.Clock) (d : Data) (timestamp : Int) (l : Leaf) : Prop :=
  (∃ pattern s, d.timestamp = some pattern
    ∧ clock pattern true (timestamp.tdiv 1000000000) (((timestamp.tdiv 1000).tmod 1000000) % 2 ^ 64).toNat = .ok s
    ∧ (s = [] → Tskv.lookup (ch! "timestamp") d.formatting = none)
    ∧ Shows env d (ch! "timestamp") (.str s) (.str s []) l)
  ∨ (d.timestamp = none
    ∧ Shows env d (ch! "timestamp") (.int (timestamp.tdiv 1000)) (.long (timestamp.tdiv 1000)) l)

/-- Of the attributes with the same name only the first. -/
def firsts : List (View × Value) → List (View × Value)
  | [] => []
  | a :: as => a :: (firsts as).filter fun b => b.1.text ≠ a.1.text

/-- The fields of a record in the order in which they are written, with their original names. -/
def FieldsShow (env : Env) (clock : StringFmt.Clock) (d : Data) (r : Record) (fs : List (Str × Leaf)) : Prop :=
  ∃ message lwp thread process severity timestamp attributes,
    fs = (ch! "message", message) :: (ch! "lwp", lwp) :: (ch! "thread", thread) :: (ch! "process", process)
      :: (ch! "severity", severity) :: (ch! "timestamp", timestamp) :: attributes
    ∧ Shows env d (ch! "message") (.str r.message.text) (.str r.message.text ['\x00']) message
    ∧ Shows env d (ch! "lwp") (.int env.lwp) (.ulong env.lwp) lwp
    ∧ Shows env d (ch! "thread") (.str (ch! "0x" ++ Nat.toDigits 16 r.tid)) (.str (ch! "0x" ++ Nat.toDigits 16 r.tid) [])
        thread
    ∧ Shows env d (ch! "process") (.int env.pid) (.ulong env.pid) process
    ∧ SeverityShows env d r.severity severity
    ∧ TimestampShows env clock d r.timestamp timestamp
    ∧ Both (AttributeShows env d) (if d.unique then firsts r.pack.flatten else r.pack.flatten) attributes

/-- No field is at a place through which another one is reached. -/
def NoCollision (d : Data) (place : Str → List Str) (fs : List (Str × Leaf)) : Prop :=
  ∀ f ∈ fs, ∀ g ∈ fs, ¬ place f.1 ++ [shownAs d f.1] <+: place g.1

/-! ## Reading the text (RFC 8259, texts without white space) -/

/-- A JSON value as its text gives it: numbers are kept as they are written. -/
inductive Parsed where
  | null
  | bool (b : Bool)
  | num (text : Str)
  | str (s : Str)
  | arr (xs : List Parsed)
  | obj (ms : List (Str × Parsed))

/-- `\uXXXX` (surrogates are not put together). -/
def hexChar (a b c d : Char) : Option Char :=
  match hexValue a, hexValue b, hexValue c, hexValue d with
  | some a, some b, some c, some d => some (Char.ofNat (((a * 16 + b) * 16 + c) * 16 + d))
  | _, _, _, _ => none

/-- The character that a backslash and another one stand for. -/
def simpleEscape : Char → Option Char
  | '"' => some '"'
  | '\\' => some '\\'
  | '/' => some '/'
  | 'b' => some '\x08'
  | 'f' => some '\x0c'
  | 'n' => some '\n'
  | 'r' => some '\r'
  | 't' => some '\t'
  | _ => none

/-- What comes after an opening quote, up to the closing one, and the rest. -/
def readString : Str → Option (Str × Str)
  | '"' :: s => some ([], s)
  | '\\' :: 'u' :: a :: b :: c :: d :: s =>
    (hexChar a b c d).bind fun x => (readString s).map fun p => (x :: p.1, p.2)
  | '\\' :: c :: s => (simpleEscape c).bind fun x => (readString s).map fun p => (x :: p.1, p.2)
  | c :: s => if c.toNat < 0x20 then none else (readString s).map fun p => (c :: p.1, p.2)
  | [] => none

/-- The characters of numbers. -/
def numeric (c : Char) : Bool := c.isDigit || c == '-' || c == '+' || c == '.' || c == 'e' || c == 'E'

mutual

/-- A value and the rest. The first argument bounds the depth of the recursion. -/
def readValue : Nat → Str → Option (Parsed × Str)
  | 0, _ => none
  | n + 1, s =>
    match s with
    | 'n' :: 'u' :: 'l' :: 'l' :: s => some (.null, s)
    | 't' :: 'r' :: 'u' :: 'e' :: s => some (.bool true, s)
    | 'f' :: 'a' :: 'l' :: 's' :: 'e' :: s => some (.bool false, s)
    | '"' :: s =>
      match readString s with
      | some (t, s) => some (.str t, s)
      | none => none
    | '[' :: ']' :: s => some (.arr [], s)
    | '[' :: s =>
      match readItems n s with
      | some (xs, s) => some (.arr xs, s)
      | none => none
    | '{' :: '}' :: s => some (.obj [], s)
    | '{' :: s =>
      match readMembers n s with
      | some (ms, s) => some (.obj ms, s)
      | none => none
    | s => if s.takeWhile numeric = [] then none else some (.num (s.takeWhile numeric), s.dropWhile numeric)

/-- Elements up to the closing bracket. -/
def readItems : Nat → Str → Option (List Parsed × Str)
  | 0, _ => none
  | n + 1, s =>
    match readValue n s with
    | some (v, ']' :: s) => some ([v], s)
    | some (v, ',' :: s) =>
      match readItems n s with
      | some (vs, s) => some (v :: vs, s)
      | none => none
    | _ => none

/-- Members up to the closing brace. -/
def readMembers : Nat → Str → Option (List (Str × Parsed) × Str)
  | 0, _ => none
  | n + 1, s =>
    match s with
    | '"' :: s =>
      match readString s with
      | some (k, ':' :: s) =>
        match readValue n s with
        | some (v, '}' :: s) => some ([(k, v)], s)
        | some (v, ',' :: s) =>
          match readMembers n s with
          | some (ms, s) => some ((k, v) :: ms, s)
          | none => none
        | _ => none
      | _ => none
    | _ => none

end

/-- A whole text: a value, and perhaps a newline. -/
def read (s : Str) : Option Parsed :=
  match readValue (s.length + 1) s with
  | some (v, []) => some v
  | some (v, ['\n']) => some v
  | _ => none

def decimal (z : Int) : Str := if z < 0 then '-' :: Nat.toDigits 10 z.natAbs else Nat.toDigits 10 z.natAbs

/-- What is expected to be read for a value. -/
def Leaf.parsed (dtoa : Nat → Str) : Leaf → Parsed
  | .null => .null
  | .bool b => .bool b
  | .int z => .num (decimal z)
  | .double bits => .num (dtoa bits)
  | .str s => .str s

mutual

/-- What is expected to be read for a tree. -/
def Tree.parsed (dtoa : Nat → Str) : Tree → Parsed
  | .leaf l => l.parsed dtoa
  | .arr xs => .arr (parsedAll dtoa xs)
  | .obj ms => .obj (parsedMembers dtoa ms)

def parsedAll (dtoa : Nat → Str) : List Tree → List Parsed
  | [] => []
  | t :: ts => t.parsed dtoa :: parsedAll dtoa ts

def parsedMembers (dtoa : Nat → Str) : List (Str × Tree) → List (Str × Parsed)
  | [] => []
  | (k, t) :: ms => (k, t.parsed dtoa) :: parsedMembers dtoa ms

end

/-- The renderings of doubles are numbers. -/
def Numbers (dtoa : Nat → Str) : Prop := ∀ bits, dtoa bits ≠ [] ∧ ∀ c ∈ dtoa bits, numeric c = true

end Blackhole.Json
