import Verif.Builder.Model
import Verif.Root.Spec

/-!
# What builders are expected to do

Each product of a builder is described by the calls on the builder: those since the previous `build()`, if any, and those
before it. Nothing here refers to what is left in the builder's data.
-/

namespace Blackhole.Builder

/-- One `build()` in a history: its number, the calls before the previous `build()`, and the calls since. -/
structure Build (C : Type) where
  nth : Nat
  before : List C
  since : List C

/-- The builds of a history that continues one with `nth` builds. -/
def buildsFrom {C : Type} (nth : Nat) (before since : List C) : List (Step C) → List (Build C)
  | [] => []
  | .call c :: h => buildsFrom nth before (since ++ [c]) h
  | .build :: h => { nth, before, since } :: buildsFrom (nth + 1) (before ++ since) [] h

def builds {C : Type} (h : List (Step C)) : List (Build C) := buildsFrom 0 [] [] h

/-- What a new builder builds after these calls. -/
def Kind.fresh {S C P : Type} (k : Kind S C P) (cs : List C) : P := (k.build (cs.foldl k.call k.init)).1

/-- The promise that `build()` leaves a builder like a new one. -/
def Kind.Renews {S C P : Type} (k : Kind S C P) : Prop :=
  ∀ h : List (Step C), k.run k.init h = (builds h).map fun b => k.fresh b.since

/-! ## Programs with several variables -/

/-- What was done so far with the object that each variable holds, if it holds one. -/
abbrev Histories (C : Type) := Nat → Option (List (Step C))

/-- For every `build` of a program, what was done with the object before; `none` if a variable is used that holds no
object. -/
def traces {C : Type} : Histories C → List (Cmd C) → Option (List (List (Step C)))
  | _, [] => some []
  | hs, .new v :: cs => traces (fun x => if x = v then some [] else hs x) cs
  | hs, .call v c :: cs => (hs v).bind fun h => traces (fun x => if x = v then some (h ++ [.call c]) else hs x) cs
  | hs, .build v :: cs =>
    (hs v).bind fun h => (traces (fun x => if x = v then some (h ++ [.build]) else hs x) cs).map (h :: ·)
  | hs, .move dst src :: cs =>
    traces (fun x => if x = src ∧ dst ≠ src then none else if x = dst then hs src else hs x) cs

/-! ## The descriptions -/

/-- The last value that `f` gives for a call. -/
def lastOf {C V : Type} (f : C → Option V) (cs : List C) : Option V := (cs.filterMap f).getLast?

/-- The formatter that a call sets. -/
def BlockingCall.formatter? {F T : Type} : BlockingCall F T → Option (Option F)
  | .set f => some f
  | .add _ => none

/-- The sink that a call adds. -/
def BlockingCall.sink? {F T : Type} : BlockingCall F T → Option (Option T)
  | .set _ => none
  | .add t => some t

/-- The last formatter and all sinks, in order. -/
def describeBlocking {F T : Type} (cs : List (BlockingCall F T)) : Blocking F T where
  formatter := (lastOf BlockingCall.formatter? cs).getD none
  sinks := cs.filterMap BlockingCall.sink?

/-- The handlers in order. Only the first logger accepts records: the others throw. -/
def describeRoot {H : Type} (b : Build (Option H)) : Logger H where
  filter := if b.nth = 0 then some fun _ _ => some true else none
  handlers := b.since

/-- The pattern, and the last mapping. -/
def describeString {M : Type} (pattern : Str) (cs : List (Option M)) : StringData M where
  pattern := pattern
  sevmap := (lastOf some cs).getD none

/-- What calls since the last `build` say, but switches stay on. -/
def describeJson (b : Build Json.Call) : Json.Data :=
  { Json.Data.build b.since with
    unique := (b.before ++ b.since).any (fun | .unique => true | _ => false)
    newline := (b.before ++ b.since).any (fun | .newline => true | _ => false) }

/-- What calls since the last `build` say; only the first formatter has the default timestamp. -/
def describeTskv (b : Build Tskv.Call) : Tskv.Data :=
  b.since.foldl Tskv.Data.call
    (if b.nth = 0 then Tskv.Data.init else { removed := [], renamed := [], constants := [], timestamps := [] })

/-- The policies asked for since the last `build`; only the first sink has those of a new builder if none were. -/
def describeFile (path : Str) (b : Build File.Call) : FileData where
  path := path
  rotate := if .rotateStat ∈ b.since then some .stat else if b.nth = 0 then some .null else none
  flusher :=
    match lastOf (fun
        | .flushBytes u n => some (File.FlusherFactory.bytecount (File.toBytes u n))
        | .flushEvents n => some (.repeat n)
        | .rotateStat => none) b.since with
    | some f => some f
    | none => if b.nth = 0 then some (.repeat 0) else none

/-- The stream chosen last, at any time. -/
def describeStream (cs : List ConsoleCall) : Console.Stream :=
  (lastOf (fun | .stdout => some Console.Stream.stdout | .stderr => some .stderr | _ => none) cs).getD .stdout

/-- The colour of a severity after these calls: what the last call that says something about it says. -/
def colourOf (otherwise : Option Console.Color) (severity : Int) (cs : List ConsoleCall) : Option Console.Color :=
  (lastOf (fun
    | .colorize s c => if s = severity then some (some c) else none
    | .colorizeBy fn => some (fn severity)
    | _ => none) cs).getD otherwise

/-- The stream chosen last, and the colours chosen since the last `build`; the others are the default for the first sink,
and an exception for later ones. -/
def describeConsole (b : Build ConsoleCall) : ConsoleData where
  stream := describeStream (b.before ++ b.since)
  mapping severity := colourOf (if b.nth = 0 then some Console.Color.default else none) severity b.since

/-- The factor set last. -/
def describeFactor (cs : List Async.Call) : Nat :=
  (lastOf (fun | .factor n => some n | .factorR n => some n | _ => none) cs).getD 10

/-- A sink that waits, with the factor set last at any time; only the first one wraps the sink. -/
def describeAsync {T : Type} (wrapped : Option T) (b : Build Async.Call) :
    Except Async.Failure Async.Sink × Option T :=
  (Async.Sink.make (describeFactor (b.before ++ b.since)), if b.nth = 0 then wrapped else none)

end Blackhole.Builder
