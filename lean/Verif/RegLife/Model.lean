import Verif.Registry.Model

/-!
# Lifetimes of registries, factories, functions and builders (src/registry.cpp, include/blackhole/registry.hpp)

A registry owns functions, each of which shares the ownership of a factory; a user who asks for a function gets a copy. A
factory may refer to a registry, as those of the library do, and a builder refers to one, without owning it. Objects live
at numbers given in the order of their creation. Factories do not change registries while they are called.
-/

namespace Blackhole.RegLife

open Config (Node Json)
open Registry (Kind Error)

/-- What is made (src/registry.cpp:63-81): a component of a user, the library's blocking handler with a formatter and
sinks, a root logger with handlers. -/
inductive Comp where
  | own (id : Nat)
  | blocking (formatter : Comp) (sinks : List Comp)
  | logger (handlers : List Comp)

/-- What a call of `factory<T>::from` does (include/blackhole/factory.hpp:20-24): it gives a component or throws, perhaps
after it asked the registry to which it refers for functions and called them, as in src/handler/blocking.cpp:78-97,
src/sink/asynchronous.cpp:62-81 and src/sink/console.cpp:172-178. Simplified: looking a function up and calling it is one step
(src/sink/asynchronous.cpp:71 does a few more things in between, none of which changes a registry). -/
inductive Script where
  | done (r : Except Error Comp)
  | ask (registry : Nat) (kind : Kind) (type : Str) (n : Node) (k : Except Error Comp → Script)

/-- `factory<T>::from` of a registered factory (src/registry.cpp:108-130). -/
abbrev Make := Node → Script

/-- The loop over sinks in `factory<blocking_t>::from` (src/handler/blocking.cpp:89-95). -/
def sinksThen (registry : Nat) (nodes : List Node) (made : List Comp) (k : List Comp → Script) : Script :=
  match nodes with
  | [] => k made
  | n :: nodes =>
    match (n.key (ch! "type")).toString with
    | .error e => .done (.error (.mismatch e))
    | .ok none => .done (.error .sinkTypeRequired)
    | .ok (some t) => .ask registry .sink t n fun
      | .error e => .done (.error e)
      | .ok s => sinksThen registry nodes (made ++ [s]) k

/-- `factory<blocking_t>::from` (src/handler/blocking.cpp:78-97) of a factory constructed with a registry
(include/blackhole/handler/blocking.hpp:30-36). -/
def blocking (registry : Nat) : Make := fun n =>
  match ((n.key (ch! "formatter")).key (ch! "type")).toString with
  | .error e => .done (.error (.mismatch e))
  | .ok none => .done (.error .formatterRequired)
  | .ok (some t) =>
    match n.key (ch! "formatter") with
    | none => .done (.error .formatterRequired)  -- cannot happen: the type was found in it
    | some fn => .ask registry .formatter t fn fun
      | .error e => .done (.error e)
      | .ok f =>
        match (n.key (ch! "sinks")).each with
        | .error e => .done (.error (.mismatch e))
        | .ok nodes => sinksThen registry nodes [] fun sinks => .done (.ok (.blocking f sinks))

/-- The four maps of `default_registry_t` (src/registry.cpp:90-94) in one: a function is the factory that it shares. -/
abbrev Map (α : Type) := List ((Kind × Str) × α)

/-- `map[key] = value` (src/registry.cpp:109, 115, 121, 127). -/
def put {α : Type} (key : Kind × Str) (v : α) : Map α → Map α
  | [] => [(key, v)]
  | e :: m => if e.1 = key then (key, v) :: m else e :: put key v m

/-- `map.at(key)` (src/registry.cpp:43-50). -/
def find {α : Type} (key : Kind × Str) : Map α → Option α
  | [] => none
  | e :: m => if e.1 = key then some e.2 else find key m

/-- A factory object with the number of its owners (`std::shared_ptr`) (src/registry.cpp:108-130); nobody owns one
that is destroyed. -/
structure Factory where
  owners : Nat
  make : Make

/-- All registries, factories, functions that were looked up, and builders (src/registry.cpp:54-57, 83-150). -/
structure World where
  /-- Registries, until they are destroyed. -/
  regs : List (Option (Map Nat))
  factories : List Factory
  /-- `sink_factory` and so on (include/blackhole/registry.hpp:32-35): function objects that users have. -/
  funs : List (Option Nat)
  /-- `builder_t` (include/blackhole/registry.hpp:13-15): a reference to a registry and the configuration. -/
  builders : List (Option (Nat × Json))

/-- Nothing exists yet (src/registry.cpp:159-161). -/
def World.init : World := ⟨[], [], [], []⟩

/-- How a call ends (src/registry.cpp:63-81, 108-150); `more` if it takes more steps than were given. -/
inductive Outcome where
  | ok (v : Comp)
  | thrown (e : Error)
  | ub (u : UB)
  | more

/-- `registry.sink(type)` and so on (src/registry.cpp:132-150): the factory of the function that is returned. -/
def World.find (w : World) (r : Nat) (kind : Kind) (type : Str) : Except UB (Option Nat) :=
  match w.regs[r]? with
  | some (some m) => .ok (RegLife.find (kind, type) m)
  | _ => .error .dangling

/-- Calling a factory (the lambdas in src/registry.cpp:108-130): undefined if the factory is gone. -/
def World.make (w : World) (f : Nat) (n : Node) : Except UB Script :=
  match w.factories[f]? with
  | some o => if o.owners = 0 then .error .dangling else .ok (o.make n)
  | none => .error .dangling

/-- The rest of a call (src/registry.cpp:63-81, 108-150). -/
def World.run (w : World) : Nat → Script → Outcome
  | _, .done (.ok v) => .ok v
  | _, .done (.error e) => .thrown e
  | 0, .ask .. => .more
  | fuel + 1, .ask r kind type n k =>
    match w.find r kind type with
    | .error u => .ub u
    | .ok none => w.run fuel (k (.error (.notRegistered kind type)))
    | .ok (some f) =>
      match w.make f n with
      | .error u => .ub u
      | .ok s =>
        match w.run fuel s with
        | .ok v => w.run fuel (k (.ok v))
        | .thrown e => w.run fuel (k (.error e))
        | .ub u => .ub u
        | .more => .more

/-- The loop of `builder_t::build` (src/registry.cpp:69-71) with `builder_t::handler` (src/registry.cpp:76-81). -/
def handlersThen (registry : Nat) (nodes : List Node) (made : List Comp) (k : List Comp → Script) : Script :=
  match nodes with
  | [] => k made
  | n :: nodes =>
    match (n.key (ch! "type")).toString with
    | .error e => .done (.error (.mismatch e))
    | .ok t => .ask registry .handler (t.getD (ch! "blocking")) n fun
      | .error e => .done (.error e)
      | .ok h => handlersThen registry nodes (made ++ [h]) k

/-- `builder_t::build` (src/registry.cpp:63-74). -/
def buildScript (registry : Nat) (doc : Json) (name : Str) : Script :=
  match ((Node.root doc).key name).each with
  | .error e => .done (.error (.mismatch e))
  | .ok nodes => handlersThen registry nodes [] fun hs => .done (.ok (.logger hs))

/-- One owner more (src/registry.cpp:108-130, the lambdas copy the pointer). -/
def World.share (w : World) (f : Nat) : World :=
  { w with factories := w.factories.modify f fun o => { o with owners := o.owners + 1 } }

/-- One owner less (src/registry.cpp:108-130); the last one destroys the factory. -/
def World.release (w : World) (f : Nat) : World :=
  { w with factories := w.factories.modify f fun o => { o with owners := o.owners - 1 } }

/-- What users do (src/registry.cpp:54-81, 108-161). -/
inductive Op where
  /-- `registry::empty()` (src/registry.cpp:159-161). -/
  | create
  /-- The end of a registry. -/
  | destroy (r : Nat)
  /-- `r.add(std::make_shared<...>(...))`. -/
  | add (r : Nat) (kind : Kind) (type : Str) (make : Make)
  /-- `auto f = r.sink(type)` and so on. -/
  | find (r : Nat) (kind : Kind) (type : Str)
  /-- A copy of a function, the end of one, a call. -/
  | copy (f : Nat)
  | drop (f : Nat)
  | call (f : Nat) (n : Node)
  /-- `r.builder<...>(...)`, the end of a builder, `build`. -/
  | builder (r : Nat) (doc : Json)
  | dropBuilder (b : Nat)
  | build (b : Nat) (name : Str)

/-- What they see (src/registry.cpp:54-81, 132-150). -/
inductive Res where
  | unit
  | got (o : Outcome)

/-- Undefined behaviour ends the program (src/registry.cpp:108-150). -/
def exceptOf : Outcome → Except UB Res
  | .ub u => .error u
  | o => .ok (.got o)

/-- One operation, whose calls take at most `fuel` steps each way (src/registry.cpp:54-81, 108-161). Using something
after its end is undefined. -/
def step (fuel : Nat) (w : World) : Op → Except UB (World × Res)
  | .create => .ok ({ w with regs := w.regs ++ [some []] }, .unit)
  | .destroy r =>
    match w.regs[r]? with
    | some (some m) => .ok ({ m.foldl (fun w e => w.release e.2) w with regs := w.regs.set r none }, .unit)
    | _ => .error .dangling
  -- `add` (src/registry.cpp:108-130): the new function replaces the old one, which is destroyed.
  | .add r kind type make =>
    match w.regs[r]? with
    | some (some m) =>
      let f := w.factories.length
      let w1 := { w with factories := w.factories ++ [⟨1, make⟩], regs := w.regs.set r (some (put (kind, type) f m)) }
      match RegLife.find (kind, type) m with
      | none => .ok (w1, .unit)
      | some old => .ok (w1.release old, .unit)
    | _ => .error .dangling
  | .find r kind type =>
    match w.find r kind type with
    | .error u => .error u
    | .ok none => .ok ({ w with funs := w.funs ++ [none] }, .got (.thrown (.notRegistered kind type)))
    | .ok (some f) => .ok ({ w.share f with funs := w.funs ++ [some f] }, .unit)
  | .copy i =>
    match w.funs[i]? with
    | some (some f) => .ok ({ w.share f with funs := w.funs ++ [some f] }, .unit)
    | _ => .error .dangling
  | .drop i =>
    match w.funs[i]? with
    | some (some f) => .ok ({ w.release f with funs := w.funs.set i none }, .unit)
    | _ => .error .dangling
  | .call i n =>
    match w.funs[i]? with
    | some (some f) =>
      match w.make f n with
      | .error u => .error u
      | .ok s => (exceptOf (w.run fuel s)).map fun r => (w, r)
    | _ => .error .dangling
  -- include/blackhole/registry.hpp:79-82, src/registry.cpp:54-57
  | .builder r doc =>
    match w.regs[r]? with
    | some (some _) => .ok ({ w with builders := w.builders ++ [some (r, doc)] }, .unit)
    | _ => .error .dangling
  | .dropBuilder b =>
    match w.builders[b]? with
    | some (some _) => .ok ({ w with builders := w.builders.set b none }, .unit)
    | _ => .error .dangling
  | .build b name =>
    match w.builders[b]? with
    | some (some (r, doc)) => (exceptOf (w.run fuel (buildScript r doc name))).map fun r => (w, r)
    | _ => .error .dangling

/-- A program (src/registry.cpp:54-81, 108-161): the world and what was seen, up to undefined behaviour. -/
def exec (fuel : Nat) : World → List Op → Except UB (World × List Res)
  | w, [] => .ok (w, [])
  | w, op :: ops =>
    match step fuel w op with
    | .error u => .error u
    | .ok (w, r) =>
      match exec fuel w ops with
      | .error u => .error u
      | .ok (w, rs) => .ok (w, r :: rs)

end Blackhole.RegLife
