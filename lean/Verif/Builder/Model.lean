import Verif.Async.Model
import Verif.Console.Model
import Verif.File.Model
import Verif.Json.Model
import Verif.Root.Model
import Verif.Tskv.Model

/-!
# Builders

Models the builders of handlers, loggers, formatters and sinks as objects that are called, moved and asked to build. A
builder holds a pointer to its data; moving the builder leaves it without data. `build()` must be called on an rvalue,
`std::move(b).build()`, but the object stays there and may be used again, with what is left in its data.

What the standard library leaves in an object that was moved from is taken from libstdc++: an empty `std::function`, an
empty container, an empty `std::string`, a null `std::unique_ptr`.

Every call has an lvalue and an rvalue form, which do the same except for those of the asynchronous sink (`Async`).
-/

namespace Blackhole.Builder

/-- What is done with one builder object: a call of a setter or `build() &&` (all builders have this form, as in
src/handler/blocking.cpp:52-72). -/
inductive Step (C : Type) where
  | call (c : C)
  | build

/-- One kind of builder: the data of a new one, what the calls do to the data, and what `build` gives and leaves
(src/handler/blocking.cpp:41-72, src/sink/console.cpp:113-168, src/sink/file.cpp:161-209, src/root.cpp:207-231). -/
structure Kind (S C P : Type) where
  init : S
  call : S → C → S
  build : S → P × S

/-- What is done with one object, in order; the products of its `build()` calls (src/handler/blocking.cpp:70-72 and
the like). -/
def Kind.run {S C P : Type} (k : Kind S C P) : S → List (Step C) → List P
  | _, [] => []
  | s, .call c :: h => k.run (k.call s c) h
  | s, .build :: h => (k.build s).1 :: k.run (k.build s).2 h

/-- Commands of a program with several builder variables of one kind: a constructor such as
src/handler/blocking.cpp:48-50, then calls and `build() &&` (52-72). -/
inductive Cmd (C : Type) where
  | new (v : Nat)
  | call (v : Nat) (c : C)
  | build (v : Nat)
  /-- `dst = std::move(src)`, or the initialisation of `dst`. -/
  | move (dst src : Nat)

/-- The pointers in the variables (`d` or `p` in the classes); `none` is a null pointer. Calls dereference the pointer
without a look (e.g. src/root.cpp:219-231). A move is one of `std::unique_ptr`: from itself, it changes nothing. -/
def Kind.exec {S C P : Type} (k : Kind S C P) : (Nat → Option S) → List (Cmd C) → Except UB (List P)
  | _, [] => .ok []
  | vars, .new v :: cs => k.exec (Scope.upd vars v (some k.init)) cs
  | vars, .call v c :: cs =>
    match vars v with
    | none => .error .nullDeref
    | some s => k.exec (Scope.upd vars v (some (k.call s c))) cs
  | vars, .build v :: cs =>
    match vars v with
    | none => .error .nullDeref
    | some s =>
      match k.exec (Scope.upd vars v (some (k.build s).2)) cs with
      | .error e => .error e
      | .ok ps => .ok ((k.build s).1 :: ps)
  | vars, .move dst src :: cs =>
    if dst = src then k.exec vars cs
    else k.exec (Scope.upd (Scope.upd vars dst (vars src)) src none) cs

/-! ## The kinds -/

/-- `blocking_t` and the data of its builder (src/handler/blocking.hpp:13-15, src/handler/blocking.cpp:41-45), with null
pointers. -/
structure Blocking (F T : Type) where
  formatter : Option F
  sinks : List (Option T)
  deriving DecidableEq, Repr

/-- The calls of `builder<blocking_t>` (src/handler/blocking.cpp:52-68); the pointers may be null. -/
inductive BlockingCall (F T : Type) where
  | set (f : Option F)
  | add (t : Option T)

/-- `builder<blocking_t>` (src/handler/blocking.cpp:48-72). -/
def blocking (F T : Type) : Kind (Blocking F T) (BlockingCall F T) (Blocking F T) where
  init := { formatter := none, sinks := [] }
  call s
    | .set f => { s with formatter := f }
    | .add t => { s with sinks := s.sinks ++ [t] }
  build s := ({ formatter := s.formatter, sinks := s.sinks }, { formatter := none, sinks := [] })

/-- The loop of `blocking_t::handle` (src/handler/blocking.cpp:31-34): the sinks given a text by formatter `f`, until a
null pointer. -/
def emits {F T : Type} (f : F) : List (Option T) → List (F × T) × Option UB
  | [] => ([], none)
  | none :: _ => ([], some .nullDeref)
  | some t :: ts => ((f, t) :: (emits f ts).1, (emits f ts).2)

/-- `blocking_t::handle` (src/handler/blocking.cpp:26-35), if neither formatter nor sinks throw. -/
def Blocking.handle {F T : Type} (h : Blocking F T) : List (F × T) × Option UB :=
  match h.formatter with
  | none => ([], some .nullDeref)
  | some f => emits f h.sinks

/-- The data of `builder<root_logger_t>` (src/root.cpp:207-211), which is also what the logger is made of; the filter is
`none` if the function is empty. -/
structure Logger (H : Type) where
  filter : Option Root.Filter
  handlers : List (Option H)

/-- The filter of a new builder (src/root.cpp:216). -/
def acceptAll : Root.Filter := fun _ _ => some true

/-- `builder<root_logger_t>` (src/root.cpp:213-231); the only call is `add`. -/
def root (H : Type) : Kind (Logger H) (Option H) (Logger H) where
  init := { filter := some acceptAll, handlers := [] }
  call s h := { s with handlers := s.handlers ++ [h] }
  build s := ({ filter := s.filter, handlers := s.handlers }, { filter := none, handlers := [] })

/-- The filter as a log call uses it (src/root.cpp:187): calling an empty function throws. -/
def Logger.asked {H : Type} (l : Logger H) : Root.Filter :=
  match l.filter with
  | some f => f
  | none => fun _ _ => none

/-- The data of `builder<string_t>` (src/formatter/string.cpp:346-350), and what `string_t` is made from: `none` stands for
an empty function, and for the constructor without a mapping. -/
structure StringData (M : Type) where
  pattern : Str
  sevmap : Option M
  deriving DecidableEq, Repr

/-- `builder<string_t>` (src/formatter/string.cpp:352-373). The constructors of `string_t` take the pattern by `const`
reference and the mapping by value (src/formatter/string.cpp:319, 327), so the builder keeps the pattern. Simplification:
a pattern that does not parse makes the constructor throw; the product is what the constructor got. -/
def string (M : Type) (pattern : Str) : Kind (StringData M) (Option M) (StringData M) where
  init := { pattern, sevmap := none }
  call s m := { s with sevmap := m }
  build s := (s, { s with sevmap := none })

/-- `builder<dev_t>` (src/handler/dev.cpp:208-216): it has no calls but `build`. -/
def dev : Kind Unit Empty Unit where
  init := ()
  call s _ := s
  build s := ((), s)

/-- `builder<json_t>` (src/formatter/json.cpp:404-502). `build` is `const`, but moves out of what `d` points to; the
switches are `bool`s and stay (src/formatter/json.cpp:124-145). -/
def json : Kind Json.Data Json.Call Json.Data where
  init := Json.Data.init
  call := Json.Data.call
  build s := (s, { unique := s.unique, newline := s.newline, timestamp := none, severity := [], specified := [],
                   unspecified := [], mapping := [], formatting := [] })

/-- `builder<tskv_t>` (src/formatter/tskv.cpp:266-327). -/
def tskv : Kind Tskv.Data Tskv.Call Tskv.Data where
  init := Tskv.Data.init
  call := Tskv.Data.call
  build s := (s, { removed := [], renamed := [], constants := [], timestamps := [] })

/-- The data of `builder<file_t>` (src/sink/file.cpp:161-166), and what the sink is made of. -/
structure FileData where
  path : Str
  rotate : Option File.RotateFactory
  flusher : Option File.FlusherFactory
  deriving DecidableEq, Repr

/-- `builder<file_t>` (src/sink/file.cpp:168-209). The constructor of the sink takes the path by `const` reference
(src/sink/file.cpp:106), so the builder keeps it. -/
def file (path : Str) : Kind FileData File.Call FileData where
  init := { path, rotate := some .null, flusher := some (.repeat 0) }
  call s
    | .flushBytes u n => { s with flusher := some (.bytecount (File.toBytes u n)) }
    | .flushEvents n => { s with flusher := some (.repeat n) }
    | .rotateStat => { s with rotate := some .stat }
  build s := (s, { path := s.path, rotate := none, flusher := none })

/-- How the first `emit` of a file sink starts: `create_backend` (src/sink/file.cpp:142-150) opens the file, then asks
the two factories. -/
inductive FirstEmit where
  /-- The file cannot be opened. -/
  | threw
  /-- The file was opened, and created if need be; then a null pointer was used. -/
  | openedThenNull
  /-- As a sink of the `File` area, with these factories. -/
  | sink (s : File.Sink)
  deriving DecidableEq, Repr

/-- The first call of `emit` on the product (src/sink/file.cpp:143-150): a factory that was moved away is null. -/
def FileData.firstEmit (d : FileData) (opens : Bool) : FirstEmit :=
  if opens then
    match d.rotate, d.flusher with
    | some r, some f => .sink (File.Sink.init r f)
    | _, _ => .openedThenNull
  else .threw

/-- The data of `builder<console_t>` (src/sink/console.cpp:113-117). The mapping is given by what calling it does: `none`
is an exception, which is what an empty function does. -/
structure ConsoleData where
  stream : Console.Stream
  mapping : Int → Option Console.Color

/-- The calls of `builder<console_t>` (src/sink/console.cpp:123-164); the function given to `colorize` may be empty or
throw. -/
inductive ConsoleCall where
  | stdout
  | stderr
  | colorize (severity : Int) (color : Console.Color)
  | colorizeBy (fn : Int → Option Console.Color)

/-- `builder<console_t>` (src/sink/console.cpp:119-168). -/
def console : Kind ConsoleData ConsoleCall ConsoleData where
  init := { stream := .stdout, mapping := fun _ => some Console.Color.default }
  call s
    | .stdout => { s with stream := .stdout }
    | .stderr => { s with stream := .stderr }
    | .colorize severity color =>
      let fallback := s.mapping
      { s with mapping := fun x => if severity = x then some color else fallback x }
    | .colorizeBy fn => { s with mapping := fn }
  build s := (s, { stream := s.stream, mapping := fun _ => none })

/-- The data of `builder<asynchronous_t>` (src/sink/asynchronous.cpp:16-21). -/
structure AsyncData (T : Type) where
  wrapped : Option T
  policy : Async.Policy
  factor : Nat

/-- `builder<asynchronous_t>` (src/sink/asynchronous.cpp:23-56): the sink, or the exception of its constructor, and what
the sink wraps. The constructor gets the wrapped sink by value (src/sink/asynchronous.p.cpp:62), so that the builder loses it
even if the constructor throws. -/
def async (T : Type) (wrapped : Option T) :
    Kind (AsyncData T) Async.Call (Except Async.Failure Async.Sink × Option T) where
  init := { wrapped, policy := Async.Builder.init.policy, factor := Async.Builder.init.factor }
  call s c :=
    let b := Async.Builder.call { policy := s.policy, factor := s.factor } c
    { s with policy := b.policy, factor := b.factor }
  build s := ((Async.Builder.build { policy := s.policy, factor := s.factor }, s.wrapped), { s with wrapped := none })

end Blackhole.Builder
