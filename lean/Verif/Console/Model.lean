import Verif.Registry.Model

/-!
# The console sink, terminal colours and filters
(src/sink/console.cpp, src/termcolor.cpp, src/filter/severity.cpp, src/filter/zen.hpp)

Writing to a standard stream is assumed to succeed. A record is represented by its severity.
-/

namespace Blackhole.Console

/-! ## Colours -/

/-- `termcolor_t` (include/blackhole/termcolor.hpp:9-12). -/
structure Color where
  attr : Int
  code : Int
  deriving DecidableEq, Repr

/-- src/termcolor.cpp:26-58. -/
def Color.default : Color := ⟨0, 39⟩
/-- `gray` (src/termcolor.cpp:36-38). -/
def Color.gray : Color := ⟨0, 2⟩
/-- `blue` (src/termcolor.cpp:40-42). -/
def Color.blue : Color := ⟨0, 34⟩
/-- `green` (src/termcolor.cpp:44-46). -/
def Color.green : Color := ⟨0, 32⟩
/-- `yellow` (src/termcolor.cpp:48-50). -/
def Color.yellow : Color := ⟨0, 33⟩
/-- `red` (src/termcolor.cpp:52-54). -/
def Color.red : Color := ⟨0, 31⟩
/-- `reset` (src/termcolor.cpp:56-58). -/
def Color.reset : Color := ⟨0, 0⟩

/-- How an `int` is printed to a stream (src/termcolor.cpp:81-83, `operator<<`). -/
def showInt (z : Int) : Str := if z < 0 then '-' :: Nat.toDigits 10 z.natAbs else Nat.toDigits 10 z.natAbs

/-- `operator<<` (src/termcolor.cpp:81-83). -/
def Color.seq (c : Color) : Str := ch! "\x1b[" ++ showInt c.code ++ ch! "m"

/-- `colored` (src/termcolor.cpp:60-66, 77-79). -/
def Color.colored (c : Color) : Bool := !(c.code == Color.default.code && c.attr == Color.default.attr)

/-- `write` (src/termcolor.cpp:68-75): the constructor of the scope prints the colour, its destructor the reset. -/
def Color.write (c : Color) (data : Str) : Str :=
  if c.colored then c.seq ++ data ++ Color.reset.seq else data

/-! ## Filters -/

/-- `filter_t::action_t` (include/blackhole/filter.hpp:15-22). -/
inductive Action where
  | neutral | accept | deny
  deriving DecidableEq, Repr

/-- `filter_t::filter` of a record (include/blackhole/filter.hpp:13-30), which looks at the severity only. -/
abbrev Filter := Int → Action

/-- src/filter/zen.hpp:11-13. -/
def zen : Filter := fun _ => .neutral

/-- src/filter/severity.cpp:22-28. -/
def severityFilter (threshold : Int) : Filter := fun severity =>
  if severity ≥ threshold then .neutral else .deny

/-- Why a filter is not made (src/filter/severity.cpp:40-44). -/
inductive FilterError where
  | mismatch (e : Config.Mismatch)
  /-- `std::invalid_argument("field 'threshold' is required")`. -/
  | thresholdRequired
  deriving DecidableEq, Repr

/-- `factory<filter::severity_t>::from` (src/filter/severity.cpp:37-45). -/
def severityFromConfig (n : Config.Node) : Except FilterError Filter :=
  match (n.key (ch! "threshold")).toSint64 with
  | .error e => .error (.mismatch e)
  | .ok (some t) => .ok (severityFilter t)
  | .ok none => .error .thresholdRequired

/-! ## The sink -/

/-- `std::cout` and `std::cerr` (src/sink/console.cpp:124, 133). -/
inductive Stream where
  | stdout | stderr
  deriving DecidableEq, Repr

/-- `console_t` (src/sink/console.hpp:12-17). -/
structure Sink where
  stream : Stream
  filter : Filter
  mapping : Int → Color

/-- What `emit` writes to the stream (src/sink/console.cpp:90-109); `tty` is what `isatty` of the stream says. -/
def Sink.output (s : Sink) (tty : Bool) (severity : Int) (formatted : Str) : Str :=
  match s.filter severity with
  | .deny => []
  | _ => if tty then (s.mapping severity).write formatted ++ ch! "\n" else formatted ++ ch! "\n"

/-- `builder<sink::console_t>::inner_t` (src/sink/console.cpp:113-121). -/
structure Builder where
  stream : Stream
  mapping : Int → Color

/-- The constructor (src/sink/console.cpp:119-121). -/
def Builder.init : Builder := { stream := .stdout, mapping := fun _ => Color.default }

/-- Calls on `builder<console_t>` (src/sink/console.cpp:123-164). -/
inductive Call where
  | stdout
  | stderr
  | colorize (severity : Int) (color : Color)
  | colorizeBy (fn : Int → Color)

/-- src/sink/console.cpp:123-164. -/
def Builder.call (b : Builder) : Call → Builder
  | .stdout => { b with stream := .stdout }
  | .stderr => { b with stream := .stderr }
  | .colorize severity color =>
    let fallback := b.mapping
    { b with mapping := fun s => if severity = s then color else fallback s }
  | .colorizeBy fn => { b with mapping := fn }

/-- `build()` (src/sink/console.cpp:166-168). -/
def Builder.build (b : Builder) : Sink := { stream := b.stream, filter := zen, mapping := b.mapping }

/-- `factory<sink::console_t>::from` (src/sink/console.cpp:174-183). -/
def fromConfig {S M H : Type} (r : Registry.Registry S Filter M H) (n : Config.Node) : Except Registry.Error Sink :=
  match ((n.key (ch! "filter")).key (ch! "type")).toString with
  | .error e => .error (.mismatch e)
  | .ok none => .ok { stream := .stdout, filter := zen, mapping := fun _ => Color.default }
  | .ok (some t) =>
    match r.filter t, n.key (ch! "filter") with
    | .error e, _ => .error e
    | .ok _, none => .ok { stream := .stdout, filter := zen, mapping := fun _ => Color.default }  -- cannot happen
    | .ok f, some fn =>
      match f fn with
      | .error e => .error e
      | .ok filter => .ok { stream := .stdout, filter := filter, mapping := fun _ => Color.default }

/-! ## Concurrent emits

All console sinks of the process share one mutex (src/sink/console.cpp:34). Each thread runs its list of emits; between
locking and unlocking it writes one character at a time (src/sink/console.cpp:99-108). -/

/-- One call of `emit` (src/sink/console.cpp:90) with what `isatty` says (50-60). -/
structure Job where
  sink : Sink
  tty : Bool
  severity : Int
  formatted : Str

/-- The call returns before it writes (src/sink/console.cpp:91-97). -/
def Job.denied (j : Job) : Bool := j.sink.filter j.severity == .deny
/-- What the call writes (src/sink/console.cpp:99-108). -/
def Job.line (j : Job) : Str := j.sink.output j.tty j.severity j.formatted

/-- A thread with its calls of `emit` (src/sink/console.cpp:90-109). -/
structure Thread where
  todo : List Job
  /-- The thread holds the mutex and still has this to write. -/
  writing : Option Str

/-- The threads, the mutex of all console sinks (src/sink/console.cpp:34) and what the two streams have been given. -/
structure State where
  threads : Nat → Thread
  mutex : Option Nat
  out : Stream → Str
  /-- The emits that printed and finished, in order, with their threads. -/
  done : List (Nat × Job)

/-- Before the first call of `emit` (src/sink/console.cpp:90). -/
def State.init (programs : Nat → List Job) : State :=
  { threads := fun t => { todo := programs t, writing := none }, mutex := none, out := fun _ => [], done := [] }

/-- A function changed at one point (as assignments in src/sink/console.cpp:141-160 change a mapping). No code of its
own. -/
def upd {α β : Type} [DecidableEq α] (f : α → β) (a : α) (b : β) : α → β := fun x => if x = a then b else f x

/-- Thread `t` runs for one step of `emit` (src/sink/console.cpp:90-109) or waits for the mutex (100, 105). -/
def State.step (s : State) (t : Nat) : State :=
  let th := s.threads t
  match th.todo with
  | [] => s
  | j :: js =>
    match th.writing with
    | none =>
      if j.denied then { s with threads := upd s.threads t { th with todo := js } }
      else
        match s.mutex with
        | some _ => s
        | none => { s with mutex := some t, threads := upd s.threads t { th with writing := some j.line } }
    | some (c :: rest) =>
      { s with threads := upd s.threads t { th with writing := some rest }
               out := upd s.out j.sink.stream (s.out j.sink.stream ++ [c]) }
    | some [] =>
      { s with threads := upd s.threads t { todo := js, writing := none }, mutex := none, done := s.done ++ [(t, j)] }

/-- Runs a schedule of calls of `emit` (src/sink/console.cpp:90-109). -/
def State.run (s : State) (schedule : List Nat) : State := schedule.foldl State.step s

end Blackhole.Console
