import Verif.Builder.Model

/-!
# Chains of `partial_builder` calls

Models include/blackhole/builder.hpp: a root logger is described by one chain of calls, possibly spread over several
statements,

    auto log = experimental::partial_builder<root_logger_t>()
        .handler<handler::blocking_t>()
            .set<formatter::string_t>("{message}").build()
            .add<sink::console_t>().build()
            .build()
        .build();

in which `handler`, `set` and `add` make a new object around the one they are called on, and `build` gives a reference to
the object inside.
-/

namespace Blackhole.Builder.Chain

/-- A handler that such a chain builds: a blocking one, with string formatters and console sinks as their builders describe
them, or the one for developers (include/blackhole/builder.hpp:41, 87, 109). `M` is the type of severity mappings. -/
inductive Handler (M : Type) where
  | blocking (h : Blocking (StringData M) ConsoleData)
  | dev

/-- The classes `partial_builder<T, Parent>` (include/blackhole/builder.hpp:33-162): each holds its parent and a
builder. (The parents of formatters and sinks are blocking handlers, those of handlers are loggers: only then do the
members named in `build` exist.) -/
inductive Obj (M : Type) where
  /-- 33-58 -/
  | root (handlers : List (Handler M))
  /-- 60-90 -/
  | blocking (parent : List (Handler M)) (builder : Blocking (StringData M) ConsoleData)
  /-- 92-112 -/
  | dev (parent : List (Handler M))
  /-- 114-140 -/
  | string (parent : List (Handler M)) (outer : Blocking (StringData M) ConsoleData) (builder : StringData M)
  /-- 142-162 -/
  | console (parent : List (Handler M)) (outer : Blocking (StringData M) ConsoleData) (builder : ConsoleData)

/-- The calls (include/blackhole/builder.hpp:50-57, 76-89, 108-111, 131-139, 158-161). `mapping` takes a function, which is not empty. -/
inductive Call (M : Type) where
  | handlerBlocking
  | handlerDev
  | setString (pattern : Str)
  | mapping (m : M)
  | addConsole
  | build
  deriving DecidableEq

/-- The object that a call gives (include/blackhole/builder.hpp:50-57, 76-89, 108-111, 131-139, 158-161). -/
inductive Given (M : Type) where
  /-- A new object, returned by value. -/
  | value (o : Obj M)
  /-- A reference into the object that was called. -/
  | reference (o : Obj M)
  /-- The logger itself, by value (include/blackhole/builder.hpp:55-57). -/
  | logger (handlers : List (Handler M))
  /-- The pattern does not parse: `builder<string_t>::build` throws. -/
  | threw
  /-- There is no such member. -/
  | notCompiled

/-- One call on an object (include/blackhole/builder.hpp:50-57, 76-89, 108-111, 131-139, 158-161); `parses` says which
patterns the string formatter accepts. -/
def call {M : Type} (parses : Str → Bool) : Obj M → Call M → Given M
  | .root hs, .handlerBlocking => .value (.blocking hs (blocking (StringData M) ConsoleData).init)
  | .root hs, .handlerDev => .value (.dev hs)
  | .root hs, .build => .logger hs
  | .blocking hs b, .setString p => .value (.string hs b (string M p).init)
  | .blocking hs b, .addConsole => .value (.console hs b console.init)
  | .blocking hs b, .build => .reference (.root (hs ++ [.blocking ((blocking (StringData M) ConsoleData).build b).1]))
  | .dev hs, .build => .reference (.root (hs ++ [.dev]))
  | .string hs b f, .mapping m => .reference (.string hs b ((string M f.pattern).call f (some m)))
  | .string hs b f, .build =>
    if parses f.pattern then
      .reference (.blocking hs ((blocking (StringData M) ConsoleData).call b (.set (some ((string M f.pattern).build f).1))))
    else .threw
  | .console hs b c, .build =>
    .reference (.blocking hs ((blocking (StringData M) ConsoleData).call b (.add (some (console.build c).1))))
  | _, _ => .notCompiled

/-- How a program that uses include/blackhole/builder.hpp:33-162 ends. -/
inductive Result (M : Type) where
  /-- It has the logger. -/
  | logger (handlers : List (Handler M))
  /-- It stops with a variable that is not a logger yet. -/
  | unfinished (o : Obj M)
  | threw
  | notCompiled
  /-- It uses an object that does not exist any more. -/
  | dangling

/-- Where the object that an expression refers to lives; the results of include/blackhole/builder.hpp:51, 77, 82 are
temporaries, those of 86, 108, 131, 136, 158 references. -/
inductive Place where
  /-- In a variable. -/
  | variable
  /-- In a temporary, and the expression is that temporary itself. -/
  | fresh
  /-- In a temporary, and the expression is a reference that a function returned. -/
  | inside
  deriving DecidableEq, Repr

/-- The calls of one statement (include/blackhole/builder.hpp:50-57, 76-89, 108-111, 131-139, 158-161). Temporaries live to the end of the statement, so none of its calls can meet a destroyed
one. -/
def chain {M : Type} (parses : Str → Bool) : Obj M → Place → List (Call M) → Given M × Place
  | o, pl, [] => (.reference o, pl)
  | o, pl, c :: cs =>
    match call parses o c with
    | .value o => chain parses o .fresh cs
    | .reference o => chain parses o (if pl = .variable then .variable else .inside) cs
    | g =>
      match cs with
      | [] => (g, pl)
      -- the logger has none of these members; a chain that throws does not go on
      | _ :: _ => (match g with | .threw => .threw | _ => .notCompiled, pl)

/-- A statement with one of the calls of include/blackhole/builder.hpp:50-161: `auto x = ...;`, which moves the object into a new variable, or `auto&& x = ...;`, which extends the life
of a temporary, but only if the expression is the temporary itself. -/
inductive Bind where
  | value
  | reference
  deriving DecidableEq, Repr

/-- A program: the first statement starts with a new `partial_builder<root_logger_t>`
(include/blackhole/builder.hpp:44), the others with `std::move(x)`, where
`x` is the variable of the statement before. `live` says whether that variable refers to something. -/
def exec {M : Type} (parses : Str → Bool) : Obj M → Place → Bool → List (Bind × List (Call M)) → Result M
  | o, _, _, [] => .unfinished o
  | o, pl, live, (b, cs) :: rest =>
    if live then
      match chain parses o pl cs with
      | (.logger hs, _) => match rest with | [] => .logger hs | _ :: _ => .notCompiled
      | (.threw, _) => .threw
      | (.notCompiled, _) => .notCompiled
      | (.value o, pl) => exec parses o .variable (b = .value ∨ pl ≠ .inside) rest
      | (.reference o, pl) => exec parses o .variable (b = .value ∨ pl ≠ .inside) rest
    else .dangling

/-- A whole program (include/blackhole/builder.hpp:44-57). -/
def run {M : Type} (parses : Str → Bool) (prog : List (Bind × List (Call M))) : Result M :=
  exec parses (.root []) .fresh true prog

/-! ## Specification -/

/-- What is said about a blocking handler, one thing after the other. -/
inductive Item (M : Type) where
  /-- A formatter, with the mappings given for it. -/
  | formatter (pattern : Str) (mappings : List M)
  | sink

/-- What is said about a handler. -/
inductive Said (M : Type) where
  | blocking (items : List (Item M))
  | dev

/-- The calls that say it. -/
def Item.calls {M : Type} : Item M → List (Call M)
  | .formatter p ms => [.setString p] ++ ms.map .mapping ++ [.build]
  | .sink => [.addConsole, .build]

/-- The calls that describe a handler. -/
def Said.calls {M : Type} : Said M → List (Call M)
  | .blocking items => [.handlerBlocking] ++ items.flatMap Item.calls ++ [.build]
  | .dev => [.handlerDev, .build]

/-- The calls that describe a logger with these handlers. -/
def callsOf {M : Type} (hs : List (Said M)) : List (Call M) := hs.flatMap Said.calls ++ [.build]

/-- The formatter of an item. -/
def Item.formatter? {M : Type} : Item M → Option (StringData M)
  | .formatter p ms => some { pattern := p, sevmap := ms.getLast? }
  | .sink => none

/-- Whether an item is a sink. -/
def Item.isSink {M : Type} : Item M → Bool
  | .formatter _ _ => false
  | .sink => true

/-- A sink that writes to the standard output without colours. -/
def plainConsole : ConsoleData := { stream := .stdout, mapping := fun _ => some Console.Color.default }

/-- The handler that is meant: the last formatter, and as many console sinks as there were said to be. -/
def Said.handler {M : Type} : Said M → Handler M
  | .blocking items =>
    .blocking
      { formatter := (items.filterMap Item.formatter?).getLast?
        sinks := List.replicate (items.countP Item.isSink) (some plainConsole) }
  | .dev => .dev

/-- The patterns of the formatters, in the order in which they are built. -/
def Said.patterns {M : Type} : Said M → List Str
  | .blocking items => (items.filterMap Item.formatter?).map StringData.pattern
  | .dev => []

end Blackhole.Builder.Chain
