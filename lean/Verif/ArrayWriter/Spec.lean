import Verif.ArrayWriter.Model

/-! # What writing into an array of the caller is expected to do -/

namespace Blackhole.ArrayWriter
open Buffer (Arr)

/-- An array of the caller, and the text that its beginning holds. -/
structure Page where
  array : Arr
  text : Str

/-- Characters are written behind the text if the array has room for all of them; otherwise nothing happens. -/
def Page.add (p : Page) (s : Str) : Page × Bool :=
  if p.text.length + s.length ≤ p.array.length then
    ({ array := p.array.take p.text.length ++ s.map some ++ p.array.drop (p.text.length + s.length)
       text := p.text ++ s }, true)
  else (p, false)

def Page.call (p : Page) : Call → Page × Bool
  | .text s => p.add s
  | .char c => p.add [c]
  | .field s => p.add s
  | .clear => ({ p with text := [] }, true)

def Page.calls (p : Page) : List Call → Page × List Bool
  | [] => (p, [])
  | c :: cs =>
    let (p, ok) := p.call c
    let (p, oks) := p.calls cs
    (p, ok :: oks)

/-- Texts are shorter than half of the address space. -/
def Call.Sane : Call → Prop
  | .text s | .field s => s.length < 2 ^ 63
  | _ => True

/-- How a C string is read: the characters up to the first NUL, which there has to be. -/
def cText : Arr → Option Str
  | [] => none
  | none :: _ => none
  | some c :: a => if c = '\x00' then some [] else (cText a).map (c :: ·)

end Blackhole.ArrayWriter
