import Verif.Durable.Model
import Verif.Async.Spec

/-! # What can be said about the files of a process that died (C86) -/

namespace Blackhole.Durable

open Async (accepted delivered)

/-- The lines of the accepted messages, in the order in which they were accepted. -/
def Sys.lines (s : Sys) : List Str := (accepted s.q.trace).map fun x => x.2 ++ ['\n']

/-- What the files hold, in the order in which they were opened. -/
def Sys.onDisk (s : Sys) : Str := s.file.onDisk

/-- Closing a file that is rotated away, or the last one, does not fail. (An error of this kind is swallowed: C62.) -/
def ClosesWell (cs : List Cmd) : Prop :=
  (∀ o, .worker o ∈ cs → ∀ k left, o.close ≠ .fail k left) ∧ ∀ k left, Cmd.close (.fail k left) ∉ cs

end Blackhole.Durable
