import Verif.Config.Model

/-!
# The registry, building loggers by name, the blocking handler (src/registry.cpp, src/handler/blocking.cpp)

Sinks, filters, formatters and handlers made by user factories are arbitrary values (`S`, `F`, `M`, `H`).
-/

namespace Blackhole.Registry

open Config (Node Json Opt Mismatch)

/-- The four maps of a registry (src/registry.cpp:91-94). -/
inductive Kind where
  | sink | filter | formatter | handler
  deriving DecidableEq, Repr

/-- What is thrown while something is built from a configuration (src/registry.cpp:33-40, 132-150,
src/handler/blocking.cpp:78-97). -/
inductive Error where
  | mismatch (e : Mismatch)
  /-- `std::out_of_range`: `<kind> with type "<type>" is not registered`. -/
  | notRegistered (kind : Kind) (type : Str)
  /-- `std::invalid_argument("each handler must have a formatter with type")`. -/
  | formatterRequired
  /-- `std::invalid_argument("each sink must have a type")`. -/
  | sinkTypeRequired
  /-- Thrown by a factory. -/
  | factory (id : Nat)
  /-- Undefined behaviour in a factory. -/
  | ub (u : UB)
  deriving DecidableEq, Repr

/-- A handler: the library's blocking one (src/handler/blocking.hpp:13-15) or one made by a user factory. -/
inductive Handler (S M H : Type) where
  | blocking (formatter : M) (sinks : List S)
  | custom (h : H)

/-- A factory in a registry (src/registry.cpp:85-88). -/
abbrev Factory (α : Type) := Node → Except Error α

/-- A handler factory (src/registry.cpp:120-124, src/handler/blocking.cpp:78-97): the library's `factory<blocking_t>`,
which looks its components up in the same registry when it is called, or any other. -/
inductive HandlerFactory (H : Type) where
  | blocking
  | custom (f : Factory H)

/-- `default_registry_t` (src/registry.cpp:90-94): four maps. -/
structure Registry (S F M H : Type) where
  sinks : List (Str × Factory S)
  filters : List (Str × Factory F)
  formatters : List (Str × Factory M)
  handlers : List (Str × HandlerFactory H)

/-- `registry::empty()` (src/registry.cpp:159-161). -/
def Registry.empty {S F M H : Type} : Registry S F M H := ⟨[], [], [], []⟩

/-- `map[key] = value` of `std::map` (src/registry.cpp:109, 115, 121, 127). -/
def insert {α : Type} (key : Str) (value : α) : List (Str × α) → List (Str × α)
  | [] => [(key, value)]
  | (k, v) :: rest => if k = key then (k, value) :: rest else (k, v) :: insert key value rest

/-- `map.at(key)` (src/registry.cpp:43-50). -/
def find {α : Type} (key : Str) : List (Str × α) → Option α
  | [] => none
  | (k, v) :: rest => if k = key then some v else find key rest

/-- A registration (src/registry.cpp:108-130). -/
inductive Add (S F M H : Type) where
  | sink (type : Str) (f : Factory S)
  | filter (type : Str) (f : Factory F)
  | formatter (type : Str) (f : Factory M)
  | handler (type : Str) (f : HandlerFactory H)

variable {S F M H : Type}

/-- `add` (src/registry.cpp:108-130). -/
def Registry.add (r : Registry S F M H) : Add S F M H → Registry S F M H
  | .sink t f => { r with sinks := insert t f r.sinks }
  | .filter t f => { r with filters := insert t f r.filters }
  | .formatter t f => { r with formatters := insert t f r.formatters }
  | .handler t f => { r with handlers := insert t f r.handlers }

/-- `get` and `expect` (src/registry.cpp:24-50, 132-150). -/
def get {α : Type} (kind : Kind) (type : Str) (map : List (Str × α)) : Except Error α :=
  match find type map with
  | some f => .ok f
  | none => .error (.notRegistered kind type)

/-- src/registry.cpp:132-150. -/
def Registry.sink (r : Registry S F M H) (type : Str) : Except Error (Factory S) := get .sink type r.sinks
/-- `filter(type)` (src/registry.cpp:137-140). -/
def Registry.filter (r : Registry S F M H) (type : Str) : Except Error (Factory F) := get .filter type r.filters
/-- `formatter(type)` (src/registry.cpp:147-150). -/
def Registry.formatter (r : Registry S F M H) (type : Str) : Except Error (Factory M) := get .formatter type r.formatters
/-- `handler(type)` (src/registry.cpp:142-145). -/
def Registry.handler (r : Registry S F M H) (type : Str) : Except Error (HandlerFactory H) := get .handler type r.handlers

/-- Calls a function on each element in order until one throws (src/registry.cpp:69-71). -/
def mapM {α β : Type} (f : α → Except Error β) : List α → Except Error (List β)
  | [] => .ok []
  | x :: xs =>
    match f x with
    | .error e => .error e
    | .ok y =>
      match mapM f xs with
      | .error e => .error e
      | .ok ys => .ok (y :: ys)

/-- The body of the loop over sinks (src/handler/blocking.cpp:89-95). -/
def Registry.makeSink (r : Registry S F M H) (n : Node) : Except Error S :=
  match (n.key (ch! "type")).toString with
  | .error e => .error (.mismatch e)
  | .ok none => .error .sinkTypeRequired
  | .ok (some t) =>
    match r.sink t with
    | .error e => .error e
    | .ok f => f n

/-- `factory<blocking_t>::from` (src/handler/blocking.cpp:78-97). -/
def Registry.makeBlocking (r : Registry S F M H) (n : Node) : Except Error (Handler S M H) :=
  match ((n.key (ch! "formatter")).key (ch! "type")).toString with
  | .error e => .error (.mismatch e)
  | .ok none => .error .formatterRequired
  | .ok (some t) =>
    match r.formatter t, n.key (ch! "formatter") with
    | .error e, _ => .error e
    | .ok _, none => .error .formatterRequired  -- cannot happen: the type was found in it
    | .ok f, some fn =>
      match f fn with
      | .error e => .error e
      | .ok fmt =>
        match (n.key (ch! "sinks")).each with
        | .error e => .error (.mismatch e)
        | .ok nodes =>
          match mapM r.makeSink nodes with
          | .error e => .error e
          | .ok sinks => .ok (.blocking fmt sinks)

/-- `builder_t::handler` (src/registry.cpp:76-81). -/
def Registry.makeHandler (r : Registry S F M H) (n : Node) : Except Error (Handler S M H) :=
  match (n.key (ch! "type")).toString with
  | .error e => .error (.mismatch e)
  | .ok t =>
    let type := match t with
      | some t => t
      | none => ch! "blocking"
    match r.handler type with
    | .error e => .error e
    | .ok .blocking => r.makeBlocking n
    | .ok (.custom f) =>
      match f n with
      | .error e => .error e
      | .ok h => .ok (.custom h)

/-- `builder_t::build` (src/registry.cpp:63-74): the handlers of the new root logger. -/
def Registry.build (r : Registry S F M H) (doc : Json) (name : Str) : Except Error (List (Handler S M H)) :=
  match ((Node.root doc).key name).each with
  | .error e => .error (.mismatch e)
  | .ok nodes => mapM r.makeHandler nodes

/-! ## The blocking handler at work -/

/-- What is observed while a record is handled (src/handler/blocking.cpp:26-35). -/
inductive Ev (R : Type) where
  | rendered (r : R)
  | emitted (sink : Nat) (r : R) (bytes : Str)
  deriving DecidableEq, Repr

/-- A formatter or sink may remember everything that happened before. A formatter gives the bytes left in the writer,
or an exception. (Called in src/handler/blocking.cpp:29.) -/
abbrev Fmt (R E : Type) := List (Ev R) → R → Except E Str
/-- A sink (called in src/handler/blocking.cpp:33); it may remember everything that happened before. -/
abbrev Snk (R E : Type) := List (Ev R) → R → Str → Option E

/-- The loop over the sinks (src/handler/blocking.cpp:31-34), starting with sink number `i`. -/
def emitAll {R E : Type} (r : R) (bytes : Str) : Nat → List (Snk R E) → List (Ev R) → List (Ev R) × Option E
  | _, [], tr => (tr, none)
  | i, s :: rest, tr =>
    match s tr r bytes with
    | some e => (tr ++ [.emitted i r bytes], some e)
    | none => emitAll r bytes (i + 1) rest (tr ++ [.emitted i r bytes])

/-- `blocking_t::handle` (src/handler/blocking.cpp:26-35): the new trace, and the exception if one is thrown. -/
def handle {R E : Type} (fmt : Fmt R E) (sinks : List (Snk R E)) (r : R) (tr : List (Ev R)) : List (Ev R) × Option E :=
  match fmt tr r with
  | .error e => (tr ++ [.rendered r], some e)
  | .ok bytes => emitAll r bytes 0 sinks (tr ++ [.rendered r])

end Blackhole.Registry
