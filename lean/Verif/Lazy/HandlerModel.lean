import Verif.Lazy.Model
import Verif.Dev.Model

/-! # Functions of lazy attributes in handlers

The handler for development and the blocking handler, with functions as in `Verif.Lazy.Model`. -/

namespace Blackhole.Lazy

open Rec Console

/-- `view_visitor` of the handler for development (src/handler/dev.cpp:59-80): a function gets a writer of its own. -/
def devValue {σ : Type} (fns : Fns σ) (dtoa : Nat → Str) : LValue → S σ → S σ × Except Exc Str
  | .null, s => (s, Dev.value dtoa .null)
  | .bool b, s => (s, Dev.value dtoa (.bool b))
  | .sint z, s => (s, Dev.value dtoa (.sint z))
  | .uint n, s => (s, Dev.value dtoa (.uint n))
  | .double bits, s => (s, Dev.value dtoa (.double bits))
  | .string v, s => (s, Dev.value dtoa (.string v))
  | .function id, s => call fns id s []

/-- What is printed before the value of an attribute (src/handler/dev.cpp:172-175). -/
def devBefore (env : Env) (tty : Bool) (a : View × LValue) : Str × Option Exc :=
  Dev.printAll [.ok (ch! "\n"), .ok (Dev.colorize tty Color.gray), Dev.name env a.1, .ok (Dev.colorize tty Color.reset)]

/-- The loops over the attributes (src/handler/dev.cpp:170-178): what is printed, also before an exception. -/
def devAttributes {σ : Type} (fns : Fns σ) (env : Env) (dtoa : Nat → Str) (tty : Bool) :
    List (View × LValue) → S σ → S σ × Str × Option Exc
  | [], s => (s, [], none)
  | a :: as, s =>
    match devBefore env tty a with
    | (out, some e) => (s, out, some e)
    | (out, none) =>
      match devValue fns dtoa a.2 s with
      | (s, .error e) => (s, out, some e)
      | (s, .ok t) =>
        match devAttributes fns env dtoa tty as s with
        | (s, rest, e) => (s, out ++ t ++ rest, e)

/-- What is printed before the attributes (src/handler/dev.cpp:93-165). -/
def devHead (env : Env) (libc : Date.Libc) (tty : Bool) (r : LRecord) : List (Except Exc Str) :=
  [.ok (Dev.colorize tty Color.gray), Dev.timestamp env libc r.timestamp, .ok (ch! " "),
   .ok (Dev.colorize tty (Dev.severity r.severity).1), .ok [(Dev.severity r.severity).2],
   .ok (ch! " " ++ Nat.toDigits 10 r.tid ++ ch! "/" ++ Nat.toDigits 10 env.pid),
   .ok (Dev.colorize tty Color.reset ++ Dev.colorize tty Color.gray), .ok (ch! " - "), .ok (Dev.colorize tty Color.reset),
   .ok r.message.text, .ok (Dev.colorize tty Color.reset)]

/-- `dev_t::handle` (src/handler/dev.cpp:184-193). -/
def devHandle {σ : Type} (fns : Fns σ) (env : Env) (libc : Date.Libc) (dtoa : Nat → Str) (tty : Bool) (r : LRecord) (s : S σ) :
    S σ × Str × Option Exc :=
  match Dev.printAll (devHead env libc tty r) with
  | (out, some e) => (s, out, some e)
  | (out, none) =>
    match devAttributes fns env dtoa tty r.pack.flatten s with
    | (s, mid, some e) => (s, out ++ mid, some e)
    | (s, mid, none) => (s, out ++ mid ++ ch! "\n", none)

/-- A sink of a blocking handler, as far as functions are concerned (src/handler/blocking.cpp:32-35): one that works with the
text, and may fail, or an asynchronous one, with room in its queue or not (src/sink/asynchronous.p.cpp:105-119). -/
inductive Receiver where
  | direct (fails : Option Exc)
  | queue (room : Bool)

/-- The loop over the sinks (src/handler/blocking.cpp:32-35). An asynchronous sink copies the record if there is room
(src/sink/asynchronous.p.cpp:105-107); otherwise it waits until there is, or drops the record. -/
def emitAll {σ : Type} (fns : Fns σ) (as : List (View × LValue)) : List Receiver → S σ → S σ × Except Exc Unit
  | [], s => (s, .ok ())
  | .direct none :: rest, s => emitAll fns as rest s
  | .direct (some e) :: _, s => (s, .error e)
  | .queue false :: rest, s => emitAll fns as rest s
  | .queue true :: rest, s =>
    match intoOwnedAll fns as s with
    | (s, .error e) => (s, .error e)
    | (s, .ok _) => emitAll fns as rest s

/-- `blocking_t::handle` (src/handler/blocking.cpp:27-36). -/
def blockingHandle {σ : Type} (fns : Fns σ) (format : Act σ) (sinks : List Receiver) (r : LRecord) (s : S σ) :
    S σ × Except Exc Unit :=
  match format s [] with
  | (s, .error e) => (s, .error e)
  | (s, .ok _) => emitAll fns r.pack.flatten sinks s

end Blackhole.Lazy
