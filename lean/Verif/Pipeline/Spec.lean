import Verif.Pipeline.Model
import Verif.Facade.Props

/-! # Which calls reach a sink -/

namespace Blackhole.Pipeline

open Root (HOut expectedAttributes)

/-- The call is accepted with this record: the filter says yes to a record with the pattern as its text and no time; what
handlers get has the formatted text and the time. With no values there is nothing to format. -/
inductive Accepted (p : Process) (c : Call) : Root.Rec → Prop
  | mk {values : List FmtArgs.Passed} {trailing : Option AttrList} {scopes : List AttrList} {text : Str} :
      c.args = Facade.arguments values trailing →
      c.world.scoped c.thread c.logger = .ok scopes →
      (values = [] ∧ text = c.pattern.text ∨ values ≠ [] ∧ Facade.writeAll p.env.fd c.pattern values = .ok text) →
      c.filter [] ⟨c.pattern.text, c.pattern.text, c.severity, 0, c.thread,
        expectedAttributes trailing.toList c.lg.wrappers scopes⟩ = some true →
      Accepted p c ⟨c.pattern.text, text, c.severity, c.now, c.thread,
        expectedAttributes trailing.toList c.lg.wrappers scopes⟩

/-- How a formatter sees the value of an attribute. -/
inductive SeenValue (p : Process) : Attr.View → Rec.Value → Prop
  | null : SeenValue p .null .null
  | bool {b : Bool} : SeenValue p (.bool b) (.bool b)
  | sint {v : BitVec 64} : SeenValue p (.sint v) (.sint v.toInt)
  | uint {v : BitVec 64} : SeenValue p (.uint v) (.uint v.toNat)
  | double {v : BitVec 64} : SeenValue p (.double v) (.double v.toNat)
  | string {s : Str} : SeenValue p (.string s) (.string (.at s ['\x00']))
  | function {id : Nat} : SeenValue p (.function id) (.function (p.eval id))

/-- How a formatter sees a record: the text that handlers got as its message, and all of its attributes, in order. -/
structure SeenAs (p : Process) (r : Root.Rec) (seen : Rec.Record) : Prop where
  message : seen.message = .at r.formatted ['\x00']
  severity : seen.severity = r.severity
  timestamp : seen.timestamp = r.timestamp
  tid : seen.tid = r.tid
  pack : Both (Both fun a b => b.1 = .at a.1 ['\x00'] ∧ SeenValue p a.2 b.2) r.attributes seen.pack

/-- The formatter gives this text for the record of the call. -/
def Renders (p : Process) (c : Call) (f : Essentials.Formatter) (r : Root.Rec) (text : Str) : Prop :=
  ∃ seen, SeenAs p r seen ∧ render p c.lwp seen f = .ok text

/-- The sink may throw when it meets this: a file that cannot be opened or asked for its inode, or another kind of sink
that says so. -/
def Fails (rep : Reply) : Sink → Prop
  | .file _ _ => rep.file.opened = none ∨ rep.file.recorded = none
  | .other _ _ => rep.other ≠ .ok
  | _ => False

/-- What sink `j` of handler `i`, which is `h`, is given during the call: the text of the record if the call is accepted
and its formatter gives one, unless an earlier sink of the handler throws. -/
inductive Given (p : Process) (h : Handler) (i j : Nat) (c : Call) : Option (Reply × Int × Str) → Prop
  | emitted {r : Root.Rec} {text : Str} : Accepted p c r → Renders p c h.formatter r text →
      Given p h i j c (some (c.replies i j, c.severity, text))
  | notAccepted : (∀ r, ¬ Accepted p c r) → Given p h i j c none
  | notRendered {r : Root.Rec} : Accepted p c r → (∀ text, ¬ Renders p c h.formatter r text) → Given p h i j c none
  | earlier {k : Nat} {s : Sink} : k < j → h.sinks[k]? = some s → Fails (c.replies i k) s → Given p h i j c none

/-- A sink after a sequence of emits. -/
def Sink.after (s : Sink) (emits : List (Reply × Int × Str)) : Sink :=
  emits.foldl (fun s e => (s.emit e.1 e.2.1 e.2.2).1) s

end Blackhole.Pipeline
