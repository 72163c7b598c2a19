import Verif.Base
import Verif.Fmt.Model

/-!
# Records as formatters see them (include/blackhole/record.hpp, src/record.cpp, src/attribute.hpp)
-/

namespace Blackhole.Rec

/-- A `string_view` (include/blackhole/stdext/string_view.hpp:38-43): a null pointer with size 0, or the viewed
characters and the memory behind them. -/
inductive View where
  | null
  | at (s behind : Str)
  deriving DecidableEq, Repr

/-- The characters of the view (include/blackhole/stdext/string_view.hpp:94-101). -/
def View.text : View → Str
  | .null => []
  | .at s _ => s

/-- `fmt::StringRef(v.data(), v.size())` as an argument (as in src/formatter/string.cpp:125, 185). -/
def View.ref : View → Fmt.Arg
  | .null => .strNull
  | .at s behind => .str s behind

/-- `v.data()` as an argument: a C string of unknown size (src/format.cpp:788-810 with size 0). -/
def View.data : View → Fmt.Arg
  | .null => .strNull
  | .at s behind => .str [] (s ++ behind)

/-- `attribute::view_t::inner_t` (src/attribute.hpp:18-25). A function is what it appends to the writer or the exception
that it throws (simplification: it does not look at the writer, and writes nothing if it throws). -/
inductive Value where
  | null
  | bool (b : Bool)
  | sint (z : Int)
  | uint (n : Nat)
  | double (bits : Nat)
  | string (v : View)
  | function (out : Except Nat Str)

/-- Attribute lists in record order (include/blackhole/attributes.hpp:71-76). -/
abbrev Pack := List (List (View × Value))

/-- What a formatter reads from a record (include/blackhole/record.hpp:44-53, src/record.cpp:40-74). The timestamp is in
nanoseconds since the epoch. -/
structure Record where
  message : View
  severity : Int
  timestamp : Int
  tid : Nat
  pack : Pack

/-- The process and the thread in which the record is formatted. `fd` renders doubles; `threadName` is
`pthread_getname_np`, none if it fails; `lwp` is the thread that formats (src/record.cpp:52-62); `procname` is
src/procname.cpp:41-44. -/
structure Env where
  fd : Fmt.Spec → Nat → Except Fmt.Err Str
  pid : Nat
  lwp : Nat
  procname : Str
  threadName : Nat → Option Str

/-- What a formatter throws, and undefined behaviour (src/formatter/string.cpp:260, src/formatter/json.cpp,
src/formatter/tskv.cpp). -/
inductive Exc where
  /-- From the formatting library. -/
  | fmt (e : Fmt.Err)
  /-- `std::logic_error`. -/
  | logic (what : Str)
  /-- Thrown by a user's function. -/
  | user (id : Nat)
  | ub (u : UB)
  deriving DecidableEq, Repr

/-- `writer_t::write` with one argument (include/blackhole/extensions/writer.hpp:17-20). -/
def Env.write (env : Env) (spec : Str) (a : Fmt.Arg) : Except Exc Str :=
  match Fmt.format env.fd spec [a] with
  | .ok s => .ok s
  | .error e => .error (.fmt e)

/-- One output after the other (the loops over tokens and attributes, src/formatter/string.cpp:144-158); the first
exception ends it. -/
def concat : List (Except Exc Str) → Except Exc Str
  | [] => .ok []
  | .error e :: _ => .error e
  | .ok s :: rs =>
    match concat rs with
    | .error e => .error e
    | .ok t => .ok (s ++ t)

end Blackhole.Rec
