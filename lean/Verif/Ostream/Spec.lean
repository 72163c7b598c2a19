import Verif.Ostream.Model

/-! # Standard streams: vocabulary of the statements -/

namespace Blackhole.Ostream

open Console (Color)

/-- The line that a console sink should print: on a terminal, if the record has a colour, between its sequence and the
reset sequence. -/
def line (tty : Bool) (c : Color) (m : Str) : Str :=
  if tty ∧ c ≠ ⟨0, 39⟩ then ch! "\x1b[" ++ (toString c.code).toList ++ ch! "m" ++ m ++ ch! "\x1b[0m\n" else m ++ ch! "\n"

/-- Numbers and texts are printed as they are. -/
def Format.Plain (f : Format) : Prop := f.base = .dec ∧ f.showpos = false ∧ f.width = 0

/-- No exceptions are enabled, as it is at the start of a program. -/
def Mask.none : Mask := ⟨false, false⟩

/-- One call of `emit`: the sink, what `isatty` says, the severity and the text. -/
structure Job where
  sink : Console.Sink
  tty : Bool
  severity : Int
  text : Str

def Job.denied (j : Job) : Prop := j.sink.filter j.severity = .deny
instance (j : Job) : Decidable j.denied := inferInstanceAs (Decidable (_ = _))

/-- What the job should print. -/
def Job.line (j : Job) : Str := if j.denied then [] else Ostream.line j.tty (j.sink.mapping j.severity) j.text

/-- Jobs one after the other; each must return. -/
def runJobs (s : Stream) : List Job → Option Stream
  | [] => some s
  | j :: js =>
    match emit j.sink j.tty j.severity j.text s with
    | (s, .returned) => runJobs s js
    | _ => none

end Blackhole.Ostream
