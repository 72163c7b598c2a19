import Verif.Rec.Model
import Verif.Pattern.Model

/-!
# The string formatter (src/formatter/string.cpp)
-/

namespace Blackhole.StringFmt

open Rec Pattern

/-- The rendering of time (src/formatter/string.cpp:236-253): strftime pattern, UTC or local, seconds since the epoch,
microseconds. -/
abbrev Clock := (pattern : Str) → (gmtime : Bool) → (sec : Int) → (usec : Nat) → Except Exc Str

/-- `severity_map` (include/blackhole/formatter/string.hpp:18): what it appends to the writer. -/
abbrev SevMap := (severity : Int) → (spec : Str) → Except Exc Str

/-- `view_visitor<spec>` (src/formatter/string.cpp:64-91). -/
def writeValue (env : Env) (spec : Str) : Value → Except Exc Str
  | .null => env.write spec (.cstr (ch! "none"))
  | .bool b => env.write spec (.bool b)
  | .sint z => env.write spec (.long z)
  | .uint n => env.write spec (.ulong n)
  | .double bits => env.write spec (.double bits)
  | .string v => env.write spec v.data
  | .function out =>
    match out with
    | .ok s => .ok s
    | .error id => .error (.user id)

/-- `otherwise_visitor` (src/formatter/string.cpp:93-107). -/
def writeOtherwise (env : Env) (spec : Str) : Otherwise → Except Exc Str
  | .int z => env.write spec (.long z)
  | .double bits => env.write spec (.double bits)
  | .string s => env.write spec (.str s ['\x00'])

/-- `pattern_visitor_t` (src/formatter/string.cpp:109-132); `attribute::format` is src/formatter/string/token.cpp:74-84. -/
def writeItem (env : Env) (a : View × Value) : Item → Except Exc Str
  | .literal s => .ok s
  | .name spec => env.write (ch! "{:" ++ spec ++ ch! "}") a.1.ref
  | .value spec => writeValue env (ch! "{:" ++ spec ++ ch! "}") a.2

/-- The loop over the attributes of one list (src/formatter/string.cpp:145-157): the text so far and `first`. Prefix
and suffix are empty: nothing sets them. -/
def evalList (env : Env) (l : Leftover) : List (View × Value) → Str → Bool → Except Exc (Str × Bool)
  | [], out, first => .ok (out, first)
  | a :: as, out, first =>
    match concat (l.items.map (writeItem env a)) with
    | .error e => .error e
    | .ok s => evalList env l as (out ++ (if first then [] else l.separator) ++ s) false

/-- The loop over the lists (src/formatter/string.cpp:144-158). -/
def evalPack (env : Env) (l : Leftover) : Pack → Str → Bool → Except Exc (Str × Bool)
  | [], out, first => .ok (out, first)
  | as :: pack, out, first =>
    match evalList env l as out first with
    | .error e => .error e
    | .ok (out, first) => evalPack env l pack out first

/-- `evaluator_t::eval` (src/formatter/string.cpp:142-164). -/
def eval (env : Env) (l : Leftover) (pack : Pack) : Except Exc Str :=
  match evalPack env l pack [] true with
  | .error e => .error e
  | .ok (out, _) => .ok out

/-- `find` in one list (src/formatter/string.cpp:288-292). -/
def findList (name : Str) : List (View × Value) → Option Value
  | [] => none
  | a :: as => if a.1.text = name then some a.2 else findList name as

/-- `find` (src/formatter/string.cpp:286-296); views are compared by their characters (C43). -/
def find (name : Str) : Pack → Option Value
  | [] => none
  | as :: pack =>
    match findList name as with
    | some v => some v
    | none => find name pack

/-- `visitor_t` (src/formatter/string.cpp:167-283). Microseconds are a signed count that is converted to `uint64_t`
(228-233, 239-241, 251). An empty time text lies in a buffer that was never written. -/
def render (env : Env) (clock : Clock) (sevmap : SevMap) (r : Record) : Token → Except Exc Str
  | .literal s => .ok s
  | .message spec => env.write spec r.message.ref
  | .processId spec => env.write spec (.ulong env.pid)
  | .processName spec => env.write spec (.cstr env.procname)
  | .threadId spec => env.write spec (.ulong env.lwp)
  | .threadHex spec => env.write spec (.ulong r.tid)
  | .threadName spec =>
    match env.threadName r.tid with
    | some name => env.write spec (.cstr name)
    | none => env.write spec (.cstr (ch! "<unnamed>"))
  | .severityNum spec => env.write spec (.int r.severity)
  | .severityUser spec => sevmap r.severity spec
  | .timestampNum spec => env.write spec (.long (r.timestamp.tdiv 1000))
  | .timestampUser pattern spec gmtime =>
    match clock pattern gmtime (r.timestamp.tdiv 1000000000) (((r.timestamp.tdiv 1000).tmod 1000000) % 2 ^ 64).toNat with
    | .error e => .error e
    | .ok [] => .error (.ub .uninitialised)
    | .ok s => env.write spec (.str s [])
  | .required name spec =>
    match find name r.pack with
    | some v => writeValue env spec v
    | none => .error (.logic (ch! "required attribute '" ++ name ++ ch! "' not found"))
  | .optional name spec otherwise =>
    match find name r.pack with
    | some v => writeValue env spec v
    | none => writeOtherwise env spec otherwise
  | .leftover l =>
    match eval env l r.pack with
    | .error e => .error e
    | .ok [] => .ok []
    | .ok s => env.write l.spec (.str s [])

/-- `string_t` (src/formatter/string.cpp:314-330). -/
structure Formatter where
  sevmap : SevMap
  tokens : List Token

/-- The mapping of the first constructor (src/formatter/string.cpp:322-324). -/
def plainSeverity (env : Env) : SevMap := fun severity spec => env.write spec (.int severity)

/-- `string_t(pattern, sevmap)` and `string_t(pattern)` (src/formatter/string.cpp:319-330, 367-373). -/
def Formatter.make (castDouble : Str → Option Nat) (pattern : Str) (sevmap : SevMap) : Except Err Formatter :=
  match tokenize castDouble pattern with
  | .error e => .error e
  | .ok tokens => .ok { sevmap, tokens }

/-- `string_t::format` (src/formatter/string.cpp:332-338). -/
def Formatter.format (env : Env) (clock : Clock) (f : Formatter) (r : Record) : Except Exc Str :=
  concat (f.tokens.map (render env clock f.sevmap r))

/-! ## Configuration -/

/-- What `factory<string_t>::from` throws (src/formatter/string.cpp:379-402). -/
inductive ConfigError where
  | mismatch (e : Config.Mismatch)
  | pattern (e : Err)
  | ub (u : UB)

/-- The loop over the names of severities (src/formatter/string.cpp:383-386). -/
def severityNames : List Config.Node → Except Config.Mismatch (List Str)
  | [] => .ok []
  | n :: ns =>
    match n.toString with
    | .error e => .error e
    | .ok s =>
      match severityNames ns with
      | .error e => .error e
      | .ok ss => .ok (s :: ss)

/-- The mapping of the factory (src/formatter/string.cpp:388-394): the severity is converted to `std::size_t`. -/
def mappedSeverity (env : Env) (names : List Str) : SevMap := fun severity spec =>
  let index := (severity % 2 ^ 64).toNat
  match names[index]? with
  | some name => env.write spec (.str name ['\x00'])
  | none => env.write spec (.ulong index)

/-- `factory<string_t>::from` (src/formatter/string.cpp:379-400). `get` of an empty optional violates an assertion. -/
def Formatter.fromConfig (env : Env) (castDouble : Str → Option Nat) (config : Config.Node) :
    Except ConfigError Formatter :=
  match (config.key (ch! "pattern")).toString with
  | .error e => .error (.mismatch e)
  | .ok none => .error (.ub .assertion)
  | .ok (some pattern) =>
    match config.key (ch! "sevmap") with
    | some node =>
      match node.each with
      | .error e => .error (.mismatch e)
      | .ok nodes =>
        match severityNames nodes with
        | .error e => .error (.mismatch e)
        | .ok names =>
          match make castDouble pattern (mappedSeverity env names) with
          | .error e => .error (.pattern e)
          | .ok f => .ok f
    | none =>
      match make castDouble pattern (plainSeverity env) with
      | .error e => .error (.pattern e)
      | .ok f => .ok f

end Blackhole.StringFmt
