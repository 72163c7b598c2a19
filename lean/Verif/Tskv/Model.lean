import Verif.StringFmt.Model

/-!
# The TSKV formatter (src/formatter/tskv.cpp)
-/

namespace Blackhole.Tskv

open Rec

/-- What is used of `timestamp<user>` (src/formatter/string/token.cpp:52-57): an empty pattern stands for the default
one. -/
structure Stamp where
  pattern : Str
  gmtime : Bool
  deriving DecidableEq, Repr

/-- The constructor of `timestamp<user>` (src/formatter/string/token.cpp:52-57). -/
def Stamp.make (pattern : Str) (gmtime : Bool) : Stamp :=
  { pattern := if pattern = [] then Pattern.defaultTime else pattern, gmtime }

/-- `map[key] = value` of a `std::map`, whose entries are in the order of their keys (src/formatter/tskv.cpp:277-322).
-/
def insert {α : Type} (key : Str) (value : α) : List (Str × α) → List (Str × α)
  | [] => [(key, value)]
  | (k, v) :: m =>
    if k = key then (key, value) :: m
    else if key < k then (key, value) :: (k, v) :: m
    else (k, v) :: insert key value m

/-- `find` (src/formatter/tskv.cpp:150). -/
def lookup {α : Type} (key : Str) : List (Str × α) → Option α
  | [] => none
  | (k, v) :: m => if k = key then some v else lookup key m

/-- `tskv_data` (src/formatter/tskv.cpp:60-65). -/
structure Data where
  removed : List Str
  renamed : List (Str × Str)
  constants : List (Str × Str)
  timestamps : List (Str × Stamp)

/-- `write_escaped_key` (src/formatter/tskv.cpp:180-190). -/
def escapeKey (key : Str) : Str := key.flatMap fun c => if c = '=' then ['\\', '='] else [c]

/-- The body of the loop of `write_escaped_val` (src/formatter/tskv.cpp:194-227). -/
def escapeChar (c : Char) : Str :=
  match c with
  | '\x07' => ['\\', 'a']
  | '\x08' => ['\\', 'b']
  | '\t' => ['\\', 't']
  | '\n' => ['\\', 'n']
  | '\x0b' => ['\\', 'v']
  | '\x0c' => ['\\', 'f']
  | '\r' => ['\\', 'r']
  | '\x1b' => ['\\', 'e']
  | '\x00' => ['\\', '0']
  | '\\' => ['\\', '\\']
  | c => [c]

/-- `write_escaped_val` (src/formatter/tskv.cpp:192-229). -/
def escapeVal (value : Str) : Str := value.flatMap escapeChar

/-- `add_key` (src/formatter/tskv.cpp:148-159). -/
def addKey (data : Data) (name : Str) : Str :=
  '\t' :: escapeKey (match lookup name data.renamed with
    | none => name
    | some renamed => renamed)

/-- `add` of a view (src/formatter/tskv.cpp:130-137). -/
def addView (data : Data) (name value : Str) : Str :=
  if name ∈ data.removed then [] else addKey data name ++ ['='] ++ escapeVal value

/-- `add` of anything else (src/formatter/tskv.cpp:139-146). The overload resolution takes it for `std::string` too, hence
for constants (121-125). -/
def addArg (env : Env) (data : Data) (name : Str) (a : Fmt.Arg) : Except Exc Str :=
  if name ∈ data.removed then .ok []
  else
    match env.write (ch! "={}") a with
    | .error e => .error e
    | .ok s => .ok (addKey data name ++ s)

/-- `add_constants` (src/formatter/tskv.cpp:121-125), one of them. -/
def addConstant (env : Env) (data : Data) (kv : Str × Str) : Except Exc Str := addArg env data kv.1 (.str kv.2 ['\x00'])

/-- `write_timestamp` (src/formatter/tskv.cpp:161-178) for one entry of `add_timestamps` (87-91). The text is made before
the name is looked up among the removed ones. -/
def addTimestamp (clock : StringFmt.Clock) (data : Data) (r : Record) (kv : Str × Stamp) : Except Exc Str :=
  match clock kv.2.pattern kv.2.gmtime (r.timestamp.tdiv 1000000000)
      (((r.timestamp.tdiv 1000).tmod 1000000) % 2 ^ 64).toNat with
  | .error e => .error e
  | .ok s => .ok (addView data kv.1 s)

/-- One attribute of `add_attributes` (src/formatter/tskv.cpp:111-119). The visitor (27-53) is that of the string
formatter. -/
def addAttribute (env : Env) (data : Data) (a : View × Value) : Except Exc Str :=
  match StringFmt.writeValue env (ch! "{}") a.2 with
  | .error e => .error e
  | .ok s => .ok (addView data a.1.text s)

/-- `tskv_t::format` (src/formatter/tskv.cpp:245-258). -/
def format (env : Env) (clock : StringFmt.Clock) (data : Data) (r : Record) : Except Exc Str :=
  concat ([.ok (ch! "tskv")]
    ++ data.constants.map (addConstant env data)
    ++ data.timestamps.map (addTimestamp clock data r)
    ++ [addArg env data (ch! "severity") (.int r.severity)]
    ++ [addArg env data (ch! "pid") (.ulong env.pid)]
    ++ [env.write (ch! "\ttid={:#x}") (.ulong r.tid)]
    ++ [.ok (addView data (ch! "message") r.message.text)]
    ++ r.pack.flatten.map (addAttribute env data))

/-! ## Building -/

/-- The calls on a builder (src/formatter/tskv.cpp:277-323; both overloads of each do the same). -/
inductive Call where
  | create (name value : Str)
  | rename (source target : Str)
  | remove (name : Str)
  | timestamp (name pattern : Str) (gmtime : Bool)

/-- `builder<tskv_t>::builder()` (src/formatter/tskv.cpp:271-275). -/
def Data.init : Data where
  removed := []
  renamed := []
  constants := []
  timestamps := [(ch! "timestamp", Stamp.make (ch! "%Y-%m-%d %H:%M:%S %z") true)]

/-- src/formatter/tskv.cpp:277-323. -/
def Data.call (d : Data) : Call → Data
  | .create name value => { d with constants := insert name value d.constants }
  | .rename source target => { d with renamed := insert source target d.renamed }
  | .remove name => { d with removed := name :: d.removed }
  | .timestamp name pattern gmtime => { d with timestamps := insert name (Stamp.make pattern gmtime) d.timestamps }

/-- A builder after the calls; `build` (src/formatter/tskv.cpp:325-327) takes its data. -/
def Data.build (calls : List Call) : Data := calls.foldl Data.call Data.init

/-! ## Configuration -/

/-- The members of `create` and `rename` (src/formatter/tskv.cpp:336-346). -/
def pairs (make : Str → Str → Call) : List (Str × Config.Node) → Except Config.Mismatch (List Call)
  | [] => .ok []
  | (k, n) :: rest =>
    match n.toString with
    | .error e => .error e
    | .ok s =>
      match pairs make rest with
      | .error e => .error e
      | .ok cs => .ok (make k s :: cs)

/-- The elements of `remove` (src/formatter/tskv.cpp:348-352). -/
def names : List Config.Node → Except Config.Mismatch (List Call)
  | [] => .ok []
  | n :: rest =>
    match n.toString with
    | .error e => .error e
    | .ok s =>
      match names rest with
      | .error e => .error e
      | .ok cs => .ok (.remove s :: cs)

/-- One member of `mutate` (src/formatter/tskv.cpp:355-364). -/
def mutation (key : Str) (how : Config.Node) : Except Config.Mismatch (List Call) :=
  match how.key (ch! "strftime") with
  | none => .ok []
  | some strftime =>
    let gmtime : Except Config.Mismatch Bool :=
      match how.key (ch! "gmtime") with
      | none => .ok true
      | some v =>
        match v.toBool with
        | .error e => .error e
        | .ok b => .ok b
    match gmtime with
    | .error e => .error e
    | .ok gmtime =>
      match strftime.toString with
      | .error e => .error e
      | .ok s => .ok [.timestamp key s gmtime]

/-- The members of `mutate` (src/formatter/tskv.cpp:354-366). -/
def mutations : List (Str × Config.Node) → Except Config.Mismatch (List Call)
  | [] => .ok []
  | (k, n) :: rest =>
    match mutation k n with
    | .error e => .error e
    | .ok cs =>
      match mutations rest with
      | .error e => .error e
      | .ok ds => .ok (cs ++ ds)

/-- A section of the configuration, if it is there (src/formatter/tskv.cpp:336-368). -/
def section_ {α : Type} (o : Config.Opt) (each : Config.Node → Except Config.Mismatch (List α))
    (f : List α → Except Config.Mismatch (List Call)) : Except Config.Mismatch (List Call) :=
  match o with
  | none => .ok []
  | some n =>
    match each n with
    | .error e => .error e
    | .ok l => f l

/-- `factory<tskv_t>::from` (src/formatter/tskv.cpp:333-369). -/
def fromConfig (config : Config.Node) : Except Config.Mismatch Data :=
  match section_ (config.key (ch! "create")) Config.Node.eachMap (pairs .create) with
  | .error e => .error e
  | .ok a =>
    match section_ (config.key (ch! "rename")) Config.Node.eachMap (pairs .rename) with
    | .error e => .error e
    | .ok b =>
      match section_ (config.key (ch! "remove")) Config.Node.each names with
      | .error e => .error e
      | .ok c =>
        match section_ (config.key (ch! "mutate")) Config.Node.eachMap mutations with
        | .error e => .error e
        | .ok d => .ok (Data.build (a ++ b ++ c ++ d))

end Blackhole.Tskv
