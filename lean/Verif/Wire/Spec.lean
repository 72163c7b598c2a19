import Verif.Json.Text
import Verif.Socket.Props
import Verif.File.DiskProps

/-! # C95: reading records back from a connection or a file

The reader of the other side: it reads JSON values one after another (`Json.readValue`, after RFC 8259), skips newlines
between them and stops when what is left is not a whole value. -/

namespace Blackhole.Wire

open Rec StringFmt Json

/-- Reads values until nothing, or no whole value, is left: the values, and what is left. The first argument bounds the
number of steps. -/
def readStream : Nat → Str → List Parsed × Str
  | 0, s => ([], s)
  | _ + 1, [] => ([], [])
  | n + 1, c :: s =>
    if c = '\n' then readStream n s
    else
      match readValue (s.length + 2) (c :: s) with
      | some (v, rest) => (v :: (readStream n rest).1, (readStream n rest).2)
      | none => ([], c :: s)

/-- Reads all there is. -/
def readAll (s : Str) : List Parsed × Str := readStream (s.length + 1) s

/-- The value is that of the record: its tree, as C28 describes it. -/
def Reads (env : Env) (clock : Clock) (dtoa : Nat → Str) (d : Data) (r : Record) (v : Parsed) : Prop :=
  ∃ t, tree env clock d r = .ok t ∧ v = t.parsed dtoa

/-- The text is what the formatter made of the record. -/
def Formats (env : Env) (clock : Clock) (dtoa : Nat → Str) (d : Data) (r : Record) (m : Str) : Prop :=
  format env clock dtoa d r = .ok m

/-- The complete lines of a text, and what comes after the last newline. -/
def lines : Str → List Str × Str
  | [] => ([], [])
  | c :: s =>
    if c = '\n' then ([] :: (lines s).1, (lines s).2)
    else
      match (lines s).1 with
      | [] => ([], c :: (lines s).2)
      | l :: ls => ((c :: l) :: ls, (lines s).2)

end Blackhole.Wire
