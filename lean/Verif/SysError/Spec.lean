import Verif.SysError.Model
import Verif.FmtStream.Spec

/-! # What the description of a system error is expected to be -/

namespace Blackhole.SysError

/-- The message and the text of the system. -/
def described (message system : Str) : Str := message ++ ch! ": " ++ system

/-- The message and the number of the error. -/
def numbered (message : Str) (code : Int) : Str := described message (ch! "error " ++ FmtStream.numeral 10 code)

/-- The number alone. -/
def bare (code : Int) : Str := ch! "error " ++ FmtStream.numeral 10 code

/-- The values of an `int`. -/
def IsInt (code : Int) : Prop := -2 ^ 31 ≤ code ∧ code < 2 ^ 31

/-- What is said without the system's text: the number, and the message if the whole has at most 500 characters. A
negative number counts as if it had ten. -/
def fallback (code : Int) (message : Str) : Str :=
  if 0 ≤ code then (if (numbered message code).length ≤ 500 then numbered message code else bare code)
  else (if message.length ≤ 482 then numbered message code else bare code)

/-- There is memory. -/
def Memory.Enough (mem : Memory) : Prop := ∀ k, mem.loop k = true ∧ mem.full k = true ∧ mem.short k = true

end Blackhole.SysError
