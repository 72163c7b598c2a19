import Verif.Config.Model

/-! # The syslog sink (src/sink/syslog.cpp) -/

namespace Blackhole.Syslog

/-- `LOG_ERR` (src/sink/syslog.cpp:56). -/
def LOG_ERR : Int := 3

/-- The conversion of a 64-bit integer to `int` (modulo 2^32, between -2^31 and 2^31 - 1) (src/sink/syslog.cpp:59,
75). -/
def toInt32 (z : Int) : Int := (z + 2 ^ 31) % 2 ^ 32 - 2 ^ 31

/-- The conversion of an `int` to `std::size_t` (src/sink/syslog.cpp:50). -/
def toSize (z : Int) : Nat := (z % 2 ^ 64).toNat

/-- `emit` up to the call (src/sink/syslog.cpp:49-57): the priority. The severity is an `int`. -/
def priority (priorities : List Int) (severity : Int) : Int :=
  match priorities[toSize severity]? with
  | some p => p
  | none => LOG_ERR

/-- What `"%.*s"` prints of the view (src/sink/syslog.cpp:59): at most as many characters as the precision says and
nothing from the first NUL on. A negative precision is no precision: without a NUL the view is read past its end. -/
def text (formatted : Str) : Except UB Str :=
  let precision := toInt32 formatted.length
  if precision < 0 then
    if '\x00' ∈ formatted then .ok (Config.cstr formatted) else .error .outOfBounds
  else .ok (Config.cstr (formatted.take precision.toNat))

/-- `factory<sink::syslog_t>::from` (src/sink/syslog.cpp:68-82): the priorities of the sink. -/
def fromConfig (n : Config.Node) : Except Config.Mismatch (List Int) :=
  match n.key (ch! "priorities") with
  | none => .ok []
  | some mapping =>
    match mapping.each with
    | .error e => .error e
    | .ok nodes => (nodes.mapM Config.Node.toSint64).map (·.map toInt32)

/-! ## The connection to the system logger, which belongs to the process -/

/-- What happens to sink objects (src/sink/syslog.cpp:17-27, 68-82); sinks are numbered. -/
inductive Op where
  /-- The constructor (src/sink/syslog.cpp:17-23). -/
  | construct (i : Nat)
  /-- The implicit move constructor (src/sink/syslog.hpp:22), which calls neither `openlog` nor `closelog`. -/
  | move (src dst : Nat)
  /-- The destructor (src/sink/syslog.cpp:25-27). -/
  | destroy (i : Nat)
  /-- `emit` (src/sink/syslog.cpp:49-60). -/
  | emit (i : Nat)
  deriving DecidableEq, Repr

/-- Whether an `openlog` is in force (src/sink/syslog.cpp:22, 26): the identity and options given to it are used for
messages. -/
def opened : List Op → Bool
  | [] => false
  | ops => ops.foldl (fun o op => match op with
    | .construct _ => true
    | .destroy _ => false
    | _ => o) false

/-- The objects alive after some operations (src/sink/syslog.cpp:17-27, 70, 81). -/
def alive (ops : List Op) : List Nat :=
  ops.foldl (fun l op => match op with
    | .construct i => i :: l
    | .move _ dst => dst :: l
    | .destroy i => l.filter (· ≠ i)
    | .emit _ => l) []

/-- What `factory<sink::syslog_t>::from` does (src/sink/syslog.cpp:70, 81): the local sink `i` is moved to the heap as
sink `j` and destroyed on return. -/
def factoryOps (i j : Nat) : List Op := [.construct i, .move i j, .destroy i]

end Blackhole.Syslog
