import Verif.Tskv.Model
import Verif.StringFmt.Spec

/-! # Reading TSKV lines, and what is expected to be read -/

namespace Blackhole.Tskv

open Rec

/-- The character that a backslash and `c` stand for. -/
def decode : Char → Option Char
  | 'a' => some '\x07'
  | 'b' => some '\x08'
  | 't' => some '\t'
  | 'n' => some '\n'
  | 'v' => some '\x0b'
  | 'f' => some '\x0c'
  | 'r' => some '\r'
  | 'e' => some '\x1b'
  | '0' => some '\x00'
  | '\\' => some '\\'
  | _ => none

/-- Reads an escaped value. -/
def unescape : Str → Option Str
  | [] => some []
  | '\\' :: [] => none
  | '\\' :: c :: s =>
    match decode c, unescape s with
    | some c, some s => some (c :: s)
    | _, _ => none
  | c :: s => (unescape s).map (c :: ·)

/-- The parts of a text between separators. -/
def split (d : Char) : Str → List Str
  | [] => [[]]
  | c :: s =>
    if c = d then [] :: split d s
    else
      match split d s with
      | [] => [[c]]
      | h :: t => (c :: h) :: t

/-- Cuts a field at its first `=` that is not escaped. -/
def cut : Str → Option (Str × Str)
  | [] => none
  | c :: s =>
    if c = '=' then some ([], s)
    else
      match c, s with
      | '\\', '=' :: s => (cut s).map fun kv => ('=' :: kv.1, kv.2)
      | c, s => (cut s).map fun kv => (c :: kv.1, kv.2)

/-- Reads one field. -/
def readField (s : Str) : Option (Str × Str) :=
  match cut s with
  | none => none
  | some (k, v) => (unescape v).map fun v => (k, v)

/-- Reads all of them. -/
def readFields : List Str → Option (List (Str × Str))
  | [] => some []
  | f :: fs =>
    match readField f, readFields fs with
    | some kv, some kvs => some (kv :: kvs)
    | _, _ => none

/-- Reads a line. -/
def read (line : Str) : Option (List (Str × Str)) :=
  match split '\t' line with
  | [] => none
  | header :: fs => if header = ch! "tskv" then readFields fs else none

/-! ## What is expected -/

/-- The name under which a field is written. -/
def shownAs (d : Data) (name : Str) : Str := (lookup name d.renamed).getD name

/-- The fields that are not removed, under their configured names. -/
def shown (d : Data) (fields : List (Str × Str)) : List (Str × Str) :=
  (fields.filter fun kv => kv.1 ∉ d.removed).map fun kv => (shownAs d kv.1, kv.2)

/-- A field as it is written: its key, and the text of its value. -/
def fieldText (kv : Str × Str) : Str := '\t' :: escapeKey kv.1 ++ '=' :: kv.2

/-- The text of the fields that are not removed. -/
def written (d : Data) (fields : List (Str × Str)) : Str := ((shown d fields).map fieldText).flatten

/-- A key that survives its writing: no tab, no newline, no backslash at the end. -/
def KeyOk (k : Str) : Prop := '\t' ∉ k ∧ '\n' ∉ k ∧ k.getLast? ≠ some '\\'

/-- A constant that survives its writing. -/
def ConstantOk (v : Str) : Prop := '\t' ∉ v ∧ '\n' ∉ v ∧ '\\' ∉ v

/-- The text of each timestamp. -/
def TimesShow (clock : StringFmt.Clock) (r : Record) (kv : Str × Stamp) (f : Str × Str) : Prop :=
  f.1 = kv.1 ∧ clock kv.2.pattern kv.2.gmtime (r.timestamp.tdiv 1000000000)
    (((r.timestamp.tdiv 1000).tmod 1000000) % 2 ^ 64).toNat = .ok f.2

/-- The text of each attribute. -/
def AttributeShows (env : Env) (a : View × Value) (f : Str × Str) : Prop :=
  f.1 = a.1.text ∧ StringFmt.Shows env a.2 f.2

/-- The process id, and the thread id in hexadecimal. -/
def hexText (n : Nat) : Str := ch! "0x" ++ Nat.toDigits 16 n

/-! ## What calls on a builder are expected to do -/

/-- The last of the calls for which there is an answer. -/
def last {α : Type} (answer : Call → Option α) (calls : List Call) : Option α := calls.reverse.findSome? answer

def Call.created (name : Str) : Call → Option Str
  | .create n v => if n = name then some v else none
  | _ => none

def Call.renamed (name : Str) : Call → Option Str
  | .rename n v => if n = name then some v else none
  | _ => none

def Call.stamped (name : Str) : Call → Option Stamp
  | .timestamp n p g => if n = name then some ⟨if p = [] then ch! "%Y-%m-%d %H:%M:%S.%f" else p, g⟩ else none
  | _ => none

end Blackhole.Tskv
