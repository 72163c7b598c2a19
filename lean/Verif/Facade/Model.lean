import Verif.Root.Spec
import Verif.MetaFormat.Model
import Verif.FmtArgs.Model

/-!
# The variadic facade

Models `logger_facade` (include/blackhole/extensions/facade.hpp:14-159, include/blackhole/extensions/facade.inl.hpp)
over the loggers of `Root`. Arguments of messages are those of `FmtArgs`; arguments of compile-time patterns, which are
written with `operator<<` of a writer, are those of `MetaFormat`.
-/

namespace Blackhole.Facade

open Root (Env Logger Result Trace)
open Fmt (Arg)
open FmtArgs (Passed)

/-- An argument of a variadic call (include/blackhole/extensions/facade.hpp:50-61): something to format, or an
`attribute_list`. -/
inductive FArg (α : Type) where
  | value (a : α)
  | attributes (l : AttrList)

/-- The `string_view` passed as a pattern (include/blackhole/extensions/facade.hpp:144, `pattern.data()`): its
characters, and the memory after them. -/
structure Pattern where
  text : Str
  behind : Str

/-- A call that the compiler refuses, or undefined behaviour (include/blackhole/extensions/facade.inl.hpp:20-23,
58-59; include/blackhole/extensions/facade.hpp:137-159). -/
inductive Failure where
  | notCompiled
  | ub (u : UB)
  deriving DecidableEq, Repr

variable {α : Type}

/-- `last_of` (include/blackhole/extensions/facade.inl.hpp:32-50); there is none for the empty pack. -/
def lastOf : List (FArg α) → Option (FArg α)
  | [] => none
  | [t] => some t
  | _ :: u :: tail => lastOf (u :: tail)

/-- `with_attributes` (include/blackhole/extensions/facade.inl.hpp:58-59). -/
def withAttributes (args : List (FArg α)) : Option AttrList :=
  match lastOf args with
  | some (.attributes l) => some l
  | _ => none

/-- `without_tail` (include/blackhole/extensions/facade.inl.hpp:64-80): `internal_t` moves parameters over until two are
left, and drops the last one; it is undefined for fewer than two. -/
def withoutTail : List (FArg α) → Option (List (FArg α))
  | [] => none
  | [_] => none
  | [t, _] => some [t]
  | t :: u :: v :: tail =>
    match withoutTail (u :: v :: tail) with
    | none => none
    | some rest => some (t :: rest)

/-- What `fmt` can format (include/blackhole/extensions/facade.inl.hpp:20-23): an attribute list does not compile as
an argument of `write`. -/
def valuesOf : List (FArg α) → Option (List α)
  | [] => some []
  | .value a :: rest =>
    match valuesOf rest with
    | none => none
    | some as => some (a :: as)
  | .attributes _ :: _ => none

/-- The arguments to format and the pack that the two `select` overloads pass on
(include/blackhole/extensions/facade.hpp:137-159, include/blackhole/extensions/facade.inl.hpp:82-95). -/
def select (args : List (FArg α)) : Option (List α × Pack) :=
  match withAttributes args with
  | none =>
    match valuesOf args with
    | none => none
    | some as => some (as, [])
  | some l =>
    match withoutTail args with
    | none => none
    | some rest =>
      match valuesOf rest with
      | none => none
      | some as => some (as, [l])

/-- `gcc::write_all` (include/blackhole/extensions/facade.inl.hpp:19-23): the pattern is passed on as `pattern.data()`, a
C string, so it is read up to the first NUL, wherever that is. -/
def writeAll (fd : Fmt.Spec → Nat → Except Fmt.Err Str) (pattern : Pattern) (args : List Passed) : Except Fmt.Err Str :=
  if '\x00' ∈ pattern.text ++ pattern.behind then FmtArgs.format fd (pattern.text ++ pattern.behind) args
  else .error (.ub .outOfBounds)

/-- The supplier (include/blackhole/extensions/facade.inl.hpp:20-23, include/blackhole/extensions/facade.hpp:119-123,
143-144): it appends to a writer that lives as long as the call and returns a view of everything written, so a second
invocation would return the text twice. -/
def supplier (text : Except Fmt.Err Str) (tr : Trace) : Option (Option Str) :=
  match text with
  | .error _ => none
  | .ok s => some (some (List.replicate (Root.supplies tr + 1) s).flatten)

/-- A call with a lazy message whose supplier gives `text` (include/blackhole/extensions/facade.hpp:127, 147;
include/blackhole/extensions/facade.inl.hpp:91-92). If formatting is undefined behaviour and is reached, so is the
call. -/
def callLazy (e : Env) (severity : Int) (message : Str) (text : Except Fmt.Err Str) (pack : Pack) (lg : Logger) :
    Except Failure Result :=
  match lg.logLazy e severity message (supplier text) pack with
  | .error u => .error (.ub u)
  | .ok res =>
    match res.outcome, text with
    | .supplierThrew, .error (.ub u) => .error (.ub u)
    | _, _ => .ok res

/-- A call with a message that is not formatted (include/blackhole/extensions/facade.hpp:94-96, 110-113). -/
def lift (r : Except UB Result) : Except Failure Result :=
  match r with
  | .error u => .error (.ub u)
  | .ok res => .ok res

/-- `log(severity, pattern, args...)` (include/blackhole/extensions/facade.hpp:94-115): a lone attribute list selects the
overload at 109-115, which is not a template; no arguments select 94-99. -/
def log (fd : Fmt.Spec → Nat → Except Fmt.Err Str) (e : Env) (lg : Logger) (severity : Int) (pattern : Pattern)
    (args : List (FArg Passed)) : Except Failure Result :=
  match args with
  | [] => lift (lg.logMsg e severity pattern.text)
  | [.attributes l] => lift (lg.logPack e severity pattern.text [l])
  | args =>
    match select args with
    | none => .error .notCompiled
    | some (as, pack) => callLazy e severity pattern.text (writeAll fd pattern as) pack lg

/-- `N - 1` for a `formatter<N>` (include/blackhole/extensions/metaformat.hpp, `template<std::size_t N> class
formatter`). -/
def arity : MetaFormat.Formatter → Nat
  | .last _ => 0
  | .more _ next => arity next + 1

/-- `log(severity, formatter<N>, arg, args...)` (include/blackhole/extensions/facade.hpp:119-133). The code that formats
is instantiated for the first `N - 1` arguments (include/blackhole/extensions/metaformat.hpp:185-197), which therefore
must not be attribute lists; `formatter<1>` takes and ignores anything (224-229). The message of the record is the empty
string. -/
def logCompiled (fd : Fmt.Spec → Nat → Except Fmt.Err Str) (e : Env) (lg : Logger) (severity : Int)
    (f : MetaFormat.Formatter) (args : List (FArg Arg)) : Except Failure Result :=
  match args with
  | [] => .error .notCompiled
  | arg :: args =>
    match valuesOf ((arg :: args).take (arity f)) with
    | none => .error .notCompiled
    | some as =>
      match f.call fd as with
      | .error .notCompiled => .error .notCompiled
      | .error (.run err) => callLazy e severity [] (.error err) [] lg
      | .ok s => callLazy e severity [] (.ok s) [] lg

end Blackhole.Facade
