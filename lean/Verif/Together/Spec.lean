import Verif.Together.Model

/-! # What is expected of several sinks on one path -/

namespace Blackhole.Together

open File (RotateFactory FlusherFactory)

/-- What is in a file. -/
def content (log : List Chunk) (inode : Nat) : Str := (log.filter (·.inode = inode)).flatMap (·.text)

/-- What a sink has put in a file. -/
def handed (log : List Chunk) (k inode : Nat) : Str := (log.filter fun c => c.sink = k ∧ c.inode = inode).flatMap (·.text)

/-- The lines of some calls. -/
def lines (calls : List Call) : Str := calls.flatMap fun c => c.message ++ ['\n']

/-- The calls on a sink whose lines went to a file. -/
def callsTo (wrote : List Call) (k inode : Nat) : List Call := wrote.filter fun c => c.sink = k ∧ c.inode = inode

/-- What a sink holds for a file. -/
def Sink.held (s : Sink) (inode : Nat) : Str :=
  match s.current with
  | some (st, _) => if st.inode = inode then st.buffer else []
  | none => []

/-- The beginning of the line of a call that is between its two calls on the stream. -/
def Sink.begun (s : Sink) (inode : Nat) : Str :=
  match s.pc, s.current with
  | .newline m, some (st, _) => if st.inode = inode then m else []
  | _, _ => []

/-- The sink flushes after every line. -/
def EveryEvent (f : FlusherFactory) : Prop := f = .repeat 1

/-- A stream hands over by itself only when it has been given a text of at least `limit` bytes. -/
def Patient (limit : Nat) (w : World) (acts : List Act) : Prop :=
  ∀ before k n after, acts = before ++ .spill k n :: after →
    ∃ m, ((w.run before).sinks k).pc = .newline m ∧ limit ≤ m.length

/-- What a line looks like in the file when it comes there at once. -/
def Call.chunk (c : Call) : Chunk := ⟨c.sink, c.inode, c.message ++ ['\n']⟩

/-- What the path has named since the call on sink `k` began. -/
def since (k : Nat) : World → List (Option Nat) → List Act → List (Option Nat)
  | _, seen, [] => seen
  | w, seen, a :: acts =>
    let seen := match a with
      | .emit j _ => if j = k ∧ (w.sinks k).pc = .idle then [w.path] else seen
      | _ => seen
    since k (w.step a) (seen ++ [(w.step a).path]) acts

/-- When sink `k` notes the inode of the file that it has opened, the path still names that file. -/
def NoRace (k : Nat) (w : World) (acts : List Act) : Prop :=
  ∀ before after m i, acts = before ++ .go k :: after → ((w.run before).sinks k).pc = .record m i →
    (w.run before).path = some i

end Blackhole.Together
