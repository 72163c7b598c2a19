import Verif.File.Model

/-! # Vocabulary of the file sink's statements -/

namespace Blackhole.File

/-- The chunks written to a stream. -/
def chunks : List SOp → List Str
  | [] => []
  | .write b :: rest => b :: chunks rest
  | .flush :: rest => chunks rest

/-- All bytes written to a list of streams, in order of opening. -/
def contents (ss : List Stream) : Str := ss.flatMap fun st => (chunks st.ops).flatten

/-- The messages of the emits that did not throw, each with a newline. -/
def deliveredLines : List (Oracle × Str) → List Outcome → Str
  | (_, m) :: h, .ok :: rs => m ++ '\n' :: deliveredLines h rs
  | _ :: h, _ :: rs => deliveredLines h rs
  | _, _ => []

/-- The operations on a stream that gets these chunks and is flushed after those prefixes that satisfy `due`. -/
def annotate (due : List Str → Prop) [DecidablePred due] (seen : List Str) : List Str → List SOp
  | [] => []
  | m :: ms =>
    .write m :: (if due (seen ++ [m]) then [.flush] else []) ++ annotate due (seen ++ [m]) ms

/-- A flush is due after every `n`-th write. -/
def DueEvents (n : Nat) (written : List Str) : Prop := written.length % n = 0

/-- A flush is due when the total size reaches or passes a multiple of `n` with the last write. -/
def DueBytes (n : Nat) (written : List Str) : Prop :=
  written.dropLast.flatten.length / n < written.flatten.length / n

instance (n : Nat) : DecidablePred (DueEvents n) := fun _ => inferInstanceAs (Decidable (_ = _))
instance (n : Nat) : DecidablePred (DueBytes n) := fun _ => inferInstanceAs (Decidable (_ < _))

/-- The byte counter does not wrap: no line is too long, or all of them together fit. -/
def NoWrap (n : Nat) (lines : List Str) : Prop :=
  (∀ line ∈ lines, line.length + n ≤ 2 ^ 64) ∨ lines.flatten.length < 2 ^ 64

/-- What was written after the last flush. -/
def unflushed (ops : List SOp) : List Str :=
  chunks (ops.reverse.takeWhile (· != .flush)).reverse

/-! ## A file system shared with other programs -/

/-- What the path names (an inode, or nothing), and an unused inode number source. -/
structure World where
  path : Option Nat
  sink : Sink

inductive WOp where
  /-- Another program renames, removes or replaces the file; the path now names this. -/
  | external (path : Option Nat)
  /-- The sink emits a message; a file created by this gets inode `fresh`. -/
  | emit (message : Str) (fresh : Nat)

/-- Opening in append mode creates the file if the path names nothing. -/
def openFor (path : Option Nat) (fresh : Nat) : Nat :=
  match path with
  | some i => i
  | none => fresh

/-- One step: nothing changes the path while an emit runs, and opening succeeds. -/
def World.step (w : World) : WOp → World
  | .external p => { w with path := p }
  | .emit m fresh =>
    let i := openFor w.path fresh
    let s' := (w.sink.emit { check := w.path, opened := some i, recorded := some i } m).1
    -- the path is created only if the sink opened a stream
    { path := if s'.streams.length = w.sink.streams.length then w.path else some i, sink := s' }

def World.run (w : World) (ops : List WOp) : World := ops.foldl World.step w

/-! ## Data units -/

/-- A decimal digit. -/
def Digit (c : Char) : Prop := c ∈ ['0', '1', '2', '3', '4', '5', '6', '7', '8', '9']

/-- The value of a decimal numeral, most significant digit first. -/
def decimal : Str → Nat
  | [] => 0
  | c :: cs => (c.toNat - 48) * 10 ^ cs.length + decimal cs

/-- Suffixes and their multipliers. -/
inductive Suffix : Str → Nat → Prop
  | none : Suffix [] 1
  | B : Suffix (ch! "B") 1
  | kB : Suffix (ch! "kB") (10 ^ 3)
  | MB : Suffix (ch! "MB") (10 ^ 6)
  | GB : Suffix (ch! "GB") (10 ^ 9)
  | KiB : Suffix (ch! "KiB") (2 ^ 10)
  | MiB : Suffix (ch! "MiB") (2 ^ 20)
  | GiB : Suffix (ch! "GiB") (2 ^ 30)

/-- `s` is a decimal number that fits in 64 bits followed by a suffix, and denotes `v`. -/
def DataSize (s : Str) (v : Nat) : Prop :=
  ∃ ds suf m, s = ds ++ suf ∧ ds ≠ [] ∧ (∀ c ∈ ds, Digit c) ∧ decimal ds < 2 ^ 64 ∧ Suffix suf m
    ∧ v = decimal ds * m % 2 ^ 64

end Blackhole.File
