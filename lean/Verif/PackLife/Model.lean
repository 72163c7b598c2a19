import Verif.Attr.Model

/-! # Packs of attributes as references (include/blackhole/attributes.hpp:65-69, src/root.cpp:175-201, src/wrapper.cpp:18-31)

An `attribute_pack` is a list of references to lists of attributes, and `log` takes it by a reference that is not const: wrappers
and scopes put references to their own lists into the pack of the caller. Here lists are objects with a lifetime, and packs
belong to the caller and can be given to several calls. One thread and one root logger; the record is one that some handler reads
(`pack` is not read for records that the filter rejects). -/

namespace Blackhole.PackLife

/-- The lists that are alive, the open scopes, newest first, and the packs of the caller (src/root.cpp:182-186). -/
structure St where
  lists : Nat → Option AttrList
  next : Nat
  scopes : List Nat
  packs : Nat → List Nat

/-- The start of the program (src/root.cpp:98-106). -/
def St.init : St := ⟨fun _ => none, 0, [], fun _ => []⟩

/-- What a program does (include/blackhole/logger.hpp:45-52, include/blackhole/extensions/facade.hpp:107-150). -/
inductive Op where
  /-- A list of the caller, or that of a new wrapper. -/
  | make (attrs : AttrList)
  /-- The end of a list of the caller or of a wrapper. -/
  | destroy (o : Nat)
  | «open» (attrs : AttrList)
  | close
  /-- A new pack with references to these lists. -/
  | pack (p : Nat) (own : List Nat)
  /-- A call with a pack, through wrappers with these lists, outermost first. -/
  | log (p : Nat) (chain : List Nat)
  /-- A call through the facade. -/
  | facade (own chain : List Nat)

/-- Replaces one value of a function (for the memory of include/blackhole/attributes.hpp:65-69). -/
def put {β : Type} (f : Nat → β) (a : Nat) (b : β) : Nat → β := fun x => if x = a then b else f x

/-- The references are followed when a record is read (src/root.cpp:193). -/
def St.read (s : St) : List Nat → Except UB (List AttrList)
  | [] => .ok []
  | o :: os =>
    match s.lists o with
    | none => .error .dangling
    | some x =>
      match s.read os with
      | .error e => .error e
      | .ok xs => .ok (x :: xs)

/-- What wrappers (src/wrapper.cpp:23-31) and scopes (src/scope/watcher.cpp:25-31) add to a pack, in the order of the call. -/
def St.grow (s : St) (chain pack : List Nat) : List Nat := pack ++ chain ++ s.scopes

/-- One step, with what the handlers of a log call see (src/root.cpp:162-201, src/wrapper.cpp:18-31, src/scope/watcher.cpp:13-23,
include/blackhole/extensions/facade.hpp:107-150). -/
def St.step (s : St) : Op → Except UB (St × Option (List AttrList))
  | .make attrs => .ok ({ s with lists := put s.lists s.next (some attrs), next := s.next + 1 }, none)
  | .destroy o => .ok ({ s with lists := put s.lists o none }, none)
  | .open attrs =>
    .ok ({ s with lists := put s.lists s.next (some attrs), next := s.next + 1, scopes := s.next :: s.scopes }, none)
  | .close =>
    match s.scopes with
    | [] => .error .dangling
    | o :: rest => .ok ({ s with lists := put s.lists o none, scopes := rest }, none)
  | .pack p own => .ok ({ s with packs := put s.packs p own }, none)
  | .log p chain =>
    match s.read (s.grow chain (s.packs p)) with
    | .error e => .error e
    | .ok seen => .ok ({ s with packs := put s.packs p (s.grow chain (s.packs p)) }, some seen)
  | .facade own chain =>
    match s.read (s.grow chain own) with
    | .error e => .error e
    | .ok seen => .ok (s, some seen)

/-- A history (src/root.cpp:162-201). -/
def St.run (s : St) : List Op → Except UB St
  | [] => .ok s
  | op :: ops =>
    match s.step op with
    | .error e => .error e
    | .ok (s, _) => s.run ops

end Blackhole.PackLife
