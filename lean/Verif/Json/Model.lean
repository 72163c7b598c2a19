import Verif.Tskv.Model

/-!
# The JSON formatter (src/formatter/json.cpp)

The formatter builds a tree with RapidJSON, which is a submodule without contents here. The parts of it that are used
(pointers, `GetWithDefault`, `AddMember`, `Writer`) are modelled after its documentation; they are assumptions.
-/

namespace Blackhole.Json

open Rec

/-- The values that are added (src/formatter/json.cpp:43-76). -/
inductive Leaf where
  | null
  | bool (b : Bool)
  | int (z : Int)
  | double (bits : Nat)
  | str (s : Str)
  deriving DecidableEq, Repr

/-- `rapidjson::Value` (RapidJSON, which is not part of the repository and is used in src/formatter/json.cpp:368-380).
Members are in the order of their insertion, and names may occur more than once. -/
inductive Tree where
  | leaf (l : Leaf)
  | arr (xs : List Tree)
  | obj (ms : List (Str × Tree))
  deriving Repr

/-! ## RapidJSON -/

/-- `~0` and `~1` in a token of a pointer (RapidJSON, which is not part of the repository and is used in
src/formatter/json.cpp:167, 177); anything else after `~` is an error. -/
def unescapeToken : Str → Option Str
  | [] => some []
  | '~' :: '0' :: s => (unescapeToken s).map ('~' :: ·)
  | '~' :: '1' :: s => (unescapeToken s).map ('/' :: ·)
  | '~' :: _ => none
  | c :: s => (unescapeToken s).map (c :: ·)

/-- The tokens after the first `/` (RapidJSON, which is not part of the repository and is used in
src/formatter/json.cpp:167, 177); `acc` is what was read of the current one. -/
def tokensFrom (acc : Str) : Str → List Str
  | [] => [acc]
  | c :: s => if c = '/' then acc :: tokensFrom [] s else tokensFrom (acc ++ [c]) s

/-- All of a list, or nothing (the tokens of a pointer, RapidJSON, which is not part of the repository and is used in
src/formatter/json.cpp:167, 177). -/
def all {α : Type} : List (Option α) → Option (List α)
  | [] => some []
  | none :: _ => none
  | some a :: l => (all l).map (a :: ·)

/-- The value of a hexadecimal digit (RapidJSON, which is not part of the repository and is used in
src/formatter/json.cpp:167, 177). -/
def hexDigitValue (c : Char) : Option Nat :=
  if '0' ≤ c ∧ c ≤ '9' then some (c.toNat - '0'.toNat)
  else if 'A' ≤ c ∧ c ≤ 'F' then some (c.toNat - 'A'.toNat + 10)
  else if 'a' ≤ c ∧ c ≤ 'f' then some (c.toNat - 'a'.toNat + 10)
  else none

/-- `PercentDecodeStream::Take` (RapidJSON, which is not part of the repository and is used in
src/formatter/json.cpp:167, 177): the byte written as `%XX`, and the rest. -/
def percentByte : Str → Option (Nat × Str)
  | '%' :: a :: b :: s =>
    match hexDigitValue a, hexDigitValue b with
    | some x, some y => some (x * 16 + y, s)
    | _, _ => none
  | _ => none

/-- More bytes, each of them in a range (RapidJSON, which is not part of the repository and is used in
src/formatter/json.cpp:167, 177). -/
def percentTail : List (Nat × Nat) → Str → Option (List Nat × Str)
  | [], s => some ([], s)
  | (lo, hi) :: ranges, s =>
    match percentByte s with
    | none => none
    | some (b, s) =>
      if lo ≤ b ∧ b ≤ hi then (percentTail ranges s).map fun r => (b :: r.1, r.2) else none

/-- What may follow the first byte of a character in `UTF8<>::Validate` (RapidJSON, which is not part of the
repository and is used in src/formatter/json.cpp:167, 177). -/
def utf8Tail (b : Nat) : Option (List (Nat × Nat)) :=
  if b ≤ 0x7F then some []
  else if 0xC2 ≤ b ∧ b ≤ 0xDF then some [(0x80, 0xBF)]
  else if b = 0xE0 then some [(0xA0, 0xBF), (0x80, 0xBF)]
  else if b = 0xED then some [(0x80, 0x9F), (0x80, 0xBF)]
  else if 0xE1 ≤ b ∧ b ≤ 0xEF then some [(0x80, 0xBF), (0x80, 0xBF)]
  else if b = 0xF0 then some [(0x90, 0xBF), (0x80, 0xBF), (0x80, 0xBF)]
  else if 0xF1 ≤ b ∧ b ≤ 0xF3 then some [(0x80, 0xBF), (0x80, 0xBF), (0x80, 0xBF)]
  else if b = 0xF4 then some [(0x80, 0x8F), (0x80, 0xBF), (0x80, 0xBF)]
  else none

/-- The bytes of one character, all written as `%XX`, and the rest (RapidJSON, which is not part of the repository and
is used in src/formatter/json.cpp:167, 177). -/
def percentChar (s : Str) : Option (List Nat × Str) :=
  match percentByte s with
  | none => none
  | some (b, s) =>
    match utf8Tail b with
    | none => none
    | some ranges => (percentTail ranges s).map fun r => (b :: r.1, r.2)

/-- The characters for which `Pointer::NeedPercentEncode` is false (RapidJSON, which is not part of the repository and
is used in src/formatter/json.cpp:167, 177). -/
def unreserved (c : Char) : Bool := c.isAlphanum || c = '-' || c = '.' || c = '_' || c = '~'

/-- One step in a token of a pointer that begins with `#`: the bytes that were read, and the rest. After `~`, which
may be written as `%7E`, there has to be a plain `0` or `1`. (RapidJSON, which is not part of the repository and is
used in src/formatter/json.cpp:167, 177.) -/
def fragmentStep : Str → Option (List Nat × Str)
  | [] => none
  | c :: s =>
    let first : Option (List Nat × Str) :=
      if c = '%' then percentChar (c :: s) else if unreserved c then some ([c.toNat], s) else none
    match first with
    | some ([126], '0' :: s) => some ([126], s)
    | some ([126], '1' :: s) => some ([47], s)
    | some ([126], _) => none
    | r => r

/-- A token of a pointer that begins with `#` (RapidJSON, which is not part of the repository and is used in
src/formatter/json.cpp:167, 177). Every step reads something, so `fuel` is enough if it is the length. -/
def fragmentToken : Nat → Str → Option Str
  | _, [] => some []
  | 0, _ => none
  | fuel + 1, s =>
    match fragmentStep s with
    | none => none
    | some (bytes, rest) => (fragmentToken fuel rest).map (bytes.map Char.ofNat ++ ·)

/-- `rapidjson::Pointer(source)` (RapidJSON, which is not part of the repository and is used in
src/formatter/json.cpp:167, 177): none if it is not valid. -/
def parsePointer : Str → Option (List Str)
  | [] => some []
  | '/' :: s => all ((tokensFrom [] s).map unescapeToken)
  | ['#'] => some []
  | '#' :: '/' :: s => all ((tokensFrom [] s).map fun t => fragmentToken t.length t)
  | _ :: _ => none

/-- Digits to a number of 32 bits (RapidJSON, which is not part of the repository and is used in
src/formatter/json.cpp:167, 177). The check for overflow does not see every overflow; the largest number stands for no
index. -/
def index32 : Nat → Str → Option Nat
  | n, [] => if n = 2 ^ 32 - 1 then none else some n
  | n, c :: s =>
    let m := (n * 10 + (c.toNat - '0'.toNat)) % 2 ^ 32
    if m < n then none else index32 m s

/-- The index that a token stands for in an array (RapidJSON, which is not part of the repository and is used in
src/formatter/json.cpp:167, 177). -/
def index (token : Str) : Option Nat :=
  if token ≠ [] ∧ token.all Char.isDigit ∧ (token.head? = some '0' → token = ['0']) then index32 0 token else none

/-- What `Pointer::Create` makes of a value before it descends (RapidJSON, which is not part of the repository and is
used in src/formatter/json.cpp:189, 191): objects and arrays stay, unless the token cannot be in an array; other
values are overwritten. -/
def container (token : Str) : Tree → Tree
  | .obj ms => .obj ms
  | .arr xs => if token = ['-'] ∨ (index token).isSome then .arr xs else .obj []
  | .leaf _ => if (index token).isSome then .arr [] else .obj []

/-- Replaces the first member with the name, or adds one at the end (RapidJSON, which is not part of the repository
and is used in src/formatter/json.cpp:189, 191). -/
def alter (token : Str) (f : Option Tree → Except Exc Tree) : List (Str × Tree) → Except Exc (List (Str × Tree))
  | [] => (f none).map fun t => [(token, t)]
  | (k, t) :: ms =>
    if k = token then (f (some t)).map fun t => (k, t) :: ms
    else (alter token f ms).map ((k, t) :: ·)

/-- Replaces the element at the index, after adding nulls as needed (RapidJSON, which is not part of the repository
and is used in src/formatter/json.cpp:189, 191). -/
def alterAt (f : Option Tree → Except Exc Tree) : Nat → List Tree → Except Exc (List Tree)
  | 0, [] => (f none).map fun t => [t]
  | 0, t :: ts => (f (some t)).map fun t => t :: ts
  | i + 1, [] => (alterAt f i []).map (.leaf .null :: ·)
  | i + 1, t :: ts => (alterAt f i ts).map (t :: ·)

/-- `Pointer::GetWithDefault(root, kObjectType)`, followed by `f` on the value it refers to (RapidJSON, which is not
part of the repository and is used in src/formatter/json.cpp:189, 191). `exist` tells whether all tokens so far were
found; if not, the value is set to the default. -/
def withDefault (f : Tree → Except Exc Tree) : List Str → Bool → Tree → Except Exc Tree
  | [], exist, t => f (if exist then t else .obj [])
  | token :: tokens, exist, t =>
    let descend : Option Tree → Except Exc Tree := fun
      | none => withDefault f tokens false (.leaf .null)
      | some t => withDefault f tokens exist t
    match container token t with
    | .obj ms => (alter token descend ms).map .obj
    | .arr xs =>
      match index token with
      | some i => (alterAt descend i xs).map .arr
      | none => (descend none).map fun t => .arr (xs ++ [t])
    | .leaf l => .ok (.leaf l)

/-- `AddMember` (RapidJSON, which is not part of the repository and is used in src/formatter/json.cpp:43-75): an
assertion unless it is called on an object. It does not look for members with the same name. -/
def addMember (name : Str) (l : Leaf) : Tree → Except Exc Tree
  | .obj ms => .ok (.obj (ms ++ [(name, .leaf l)]))
  | _ => .error (.ub .assertion)

/-- The digits of `\u00XX` (RapidJSON, which is not part of the repository and is used in
src/formatter/json.cpp:269-273). -/
def hexDigit (n : Nat) : Char := (Nat.digitChar n).toUpper

/-- `Writer::WriteString` (RapidJSON, which is not part of the repository and is used in
src/formatter/json.cpp:269-273): quotes, backslashes and control characters are escaped. -/
def escapeChar (c : Char) : Str :=
  if c = '"' then ['\\', '"']
  else if c = '\\' then ['\\', '\\']
  else if c = '\x08' then ['\\', 'b']
  else if c = '\x0c' then ['\\', 'f']
  else if c = '\n' then ['\\', 'n']
  else if c = '\r' then ['\\', 'r']
  else if c = '\t' then ['\\', 't']
  else if c.toNat < 0x20 then ['\\', 'u', '0', '0', hexDigit (c.toNat / 16), hexDigit (c.toNat % 16)]
  else [c]

/-- A string in quotes: `Writer::WriteString` (RapidJSON, which is not part of the repository and is used in
src/formatter/json.cpp:269-273). -/
def quote (s : Str) : Str := '"' :: s.flatMap escapeChar ++ ['"']

/-- `Writer` on values that contain no others (RapidJSON, which is not part of the repository and is used in
src/formatter/json.cpp:269-273). `dtoa` renders doubles. -/
def writeLeaf (dtoa : Nat → Str) : Leaf → Str
  | .null => ch! "null"
  | .bool true => ch! "true"
  | .bool false => ch! "false"
  | .int z => (if z < 0 then ['-'] else []) ++ Nat.toDigits 10 z.natAbs
  | .double bits => dtoa bits
  | .str s => quote s

mutual

/-- `Value::Accept` with a `Writer` (src/formatter/json.cpp:269-273): no spaces. -/
def write (dtoa : Nat → Str) : Tree → Str
  | .leaf l => writeLeaf dtoa l
  | .arr xs => '[' :: writeAll dtoa xs
  | .obj ms => '{' :: writeMembers dtoa ms

/-- The elements of an array and the closing bracket (RapidJSON, which is not part of the repository and is used in
src/formatter/json.cpp:269-273). -/
def writeAll (dtoa : Nat → Str) : List Tree → Str
  | [] => [']']
  | [t] => write dtoa t ++ [']']
  | t :: ts => write dtoa t ++ ',' :: writeAll dtoa ts

/-- The members of an object and the closing brace (RapidJSON, which is not part of the repository and is used in
src/formatter/json.cpp:269-273). -/
def writeMembers (dtoa : Nat → Str) : List (Str × Tree) → Str
  | [] => ['}']
  | [(k, t)] => quote k ++ ':' :: write dtoa t ++ ['}']
  | (k, t) :: ms => quote k ++ ':' :: write dtoa t ++ ',' :: writeMembers dtoa ms

end

/-! ## The formatter -/

/-- `json_t::properties_t` (src/formatter/json.cpp:126-146). `specified` is in the order of a `std::map`, that of the other
tables is not observable. `timestamp` is the pattern of the generator, if there is one. -/
structure Data where
  unique : Bool
  newline : Bool
  timestamp : Option Str
  severity : List Str
  specified : List (Str × List Str)
  unspecified : Str
  mapping : List (Str × Str)
  formatting : List (Str × Str)

/-- The table `routing` of `inner_t` (src/formatter/json.cpp:166-180): `insert` keeps the first route of a name. Here all
are listed and the first is taken. -/
def Data.routing (d : Data) : List (Str × Str) := d.specified.flatMap fun r => r.2.map fun name => (name, r.1)

/-- `inner_t::get` (src/formatter/json.cpp:183-193), the pointer. -/
def Data.pointer (d : Data) (name : Str) : Str :=
  match Tskv.lookup name d.routing with
  | none => d.unspecified
  | some route => route

/-- `inner_t::renamed` (src/formatter/json.cpp:198-206). -/
def Data.renamed (d : Data) (name : Str) : Str :=
  match Tskv.lookup name d.mapping with
  | none => name
  | some to => to

/-- The end of `apply` (src/formatter/json.cpp:301-341): the value as it is, or its text if a format is configured for the
name. -/
def present (d : Data) (name : Str) (text : Str → Except Exc Str) (native : Except Exc Leaf) : Except Exc Leaf :=
  match Tskv.lookup name d.formatting with
  | some spec => (text spec).map .str
  | none => native

/-- `apply` of a view (src/formatter/json.cpp:300-313). The formatting library prints it to a string first, through
`operator<<`. -/
def applyView (env : Env) (d : Data) (name s : Str) : Except Exc Leaf :=
  present d name (fun spec => env.write spec (.str s ['\x00'])) (.ok (.str s))

/-- `apply` of a number (src/formatter/json.cpp:300-313). -/
def applyInt (env : Env) (d : Data) (name : Str) (a : Fmt.Arg) (z : Int) : Except Exc Leaf :=
  present d name (fun spec => env.write spec a) (.ok (.int z))

/-- `apply` of a temporary buffer (src/formatter/json.cpp:315-327). An empty text lies in a buffer that was never
written. -/
def applyBuffer (env : Env) (d : Data) (name : Str) (s : Str) : Except Exc Leaf :=
  present d name (fun spec => if s = [] then .error (.ub .uninitialised) else env.write spec (.str s [])) (.ok (.str s))

/-- `visitor_t` on the value of an attribute (src/formatter/json.cpp:43-76). -/
def valueLeaf : Value → Except Exc Leaf
  | .null => .ok .null
  | .bool b => .ok (.bool b)
  | .sint z => .ok (.int z)
  | .uint n => .ok (.int n)
  | .double bits => .ok (.double bits)
  | .string v => .ok (.str v.text)
  | .function (.ok s) => .ok (.str s)
  | .function (.error id) => .error (.user id)

/-- `apply` of an attribute (src/formatter/json.cpp:329-341). `view_visitor` (79-105) is that of the string formatter. -/
def applyValue (env : Env) (d : Data) (name : Str) (v : Value) : Except Exc Leaf :=
  present d name (fun spec => StringFmt.writeValue env spec v) (valueLeaf v)

/-- `thread` (src/formatter/json.cpp:235-245), on Linux. -/
def threadLeaf (env : Env) (d : Data) (r : Record) : Except Exc Leaf :=
  match env.write (ch! "{:#x}") (.ulong r.tid) with
  | .error e => .error e
  | .ok s => applyBuffer env d (ch! "thread") s

/-- `severity` (src/formatter/json.cpp:247-255): the severity is converted to `std::size_t`. -/
def severityLeaf (env : Env) (d : Data) (r : Record) : Except Exc Leaf :=
  match d.severity[(r.severity % 2 ^ 64).toNat]? with
  | none => applyInt env d (ch! "severity") (.long r.severity) r.severity
  | some name => applyView env d (ch! "severity") name

/-- `timestamp` (src/formatter/json.cpp:257-267) and the generator (473-490). -/
def timestampLeaf (env : Env) (clock : StringFmt.Clock) (d : Data) (r : Record) : Except Exc Leaf :=
  match d.timestamp with
  | none => applyInt env d (ch! "timestamp") (.long (r.timestamp.tdiv 1000)) (r.timestamp.tdiv 1000)
  | some pattern =>
    match clock pattern true (r.timestamp.tdiv 1000000000)
        (((r.timestamp.tdiv 1000).tmod 1000000) % 2 ^ 64).toNat with
    | .error e => .error e
    | .ok s => applyBuffer env d (ch! "timestamp") s

/-- The attributes that are visited when names must be unique (src/formatter/json.cpp:276-287); `seen` is the set. -/
def uniques (seen : List Str) : List (View × Value) → List (View × Value)
  | [] => []
  | a :: as => if a.1.text ∈ seen then uniques seen as else a :: uniques (a.1.text :: seen) as

/-- `attributes` (src/formatter/json.cpp:275-297), which are visited. -/
def visited (d : Data) (pack : Pack) : List (View × Value) :=
  if d.unique then uniques [] pack.flatten else pack.flatten

/-- The calls of `apply` in order (src/formatter/json.cpp:385-392), on Linux: names and values. -/
def fields (env : Env) (clock : StringFmt.Clock) (d : Data) (r : Record) : List (Str × Except Exc Leaf) :=
  [(ch! "message", applyView env d (ch! "message") r.message.text),
   (ch! "lwp", applyInt env d (ch! "lwp") (.ulong env.lwp) env.lwp),
   (ch! "thread", threadLeaf env d r),
   (ch! "process", applyInt env d (ch! "process") (.ulong env.pid) env.pid),
   (ch! "severity", severityLeaf env d r),
   (ch! "timestamp", timestampLeaf env clock d r)]
  ++ (visited d r.pack).map fun a => (a.1.text, applyValue env d a.1.text a.2)

/-- One call of `apply` on the tree (src/formatter/json.cpp:300-341). A pointer that is not valid violates an assertion of
`GetWithDefault`. -/
def place (d : Data) (t : Tree) (name : Str) (value : Except Exc Leaf) : Except Exc Tree :=
  match parsePointer (d.pointer name) with
  | none => .error (.ub .assertion)
  | some tokens =>
    match value with
    | .error e => .error e
    | .ok l => withDefault (addMember (d.renamed name) l) tokens true t

/-- The calls one after the other (src/formatter/json.cpp:385-391); the first exception ends them. -/
def placeAll (d : Data) : Tree → List (Str × Except Exc Leaf) → Except Exc Tree
  | t, [] => .ok t
  | t, (name, value) :: rest =>
    match place d t name value with
    | .error e => .error e
    | .ok t => placeAll d t rest

/-- The tree of a record (src/formatter/json.cpp:379-392). -/
def tree (env : Env) (clock : StringFmt.Clock) (d : Data) (r : Record) : Except Exc Tree :=
  placeAll d (.obj []) (fields env clock d r)

/-- `json_t::format` (src/formatter/json.cpp:367-399). -/
def format (env : Env) (clock : StringFmt.Clock) (dtoa : Nat → Str) (d : Data) (r : Record) : Except Exc Str :=
  match tree env clock d r with
  | .error e => .error e
  | .ok t => .ok (write dtoa t ++ if d.newline then ['\n'] else [])

/-! ## Building -/

/-- The calls on a builder (src/formatter/json.cpp:412-497; both overloads of each do the same). -/
inductive Call where
  | route (pointer : Str)
  | routeNames (pointer : Str) (names : List Str)
  | rename (source target : Str)
  | unique
  | newline
  | severity (names : List Str)
  | timestamp (pattern : Str)
  | format (name spec : Str)

/-- `builder<json_t>::builder()` (src/formatter/json.cpp:142-145, 408-410). -/
def Data.init : Data where
  unique := false
  newline := false
  timestamp := none
  severity := []
  specified := []
  unspecified := []
  mapping := []
  formatting := []

/-- src/formatter/json.cpp:412-497. -/
def Data.call (d : Data) : Call → Data
  | .route pointer => { d with unspecified := pointer }
  | .routeNames pointer names => { d with specified := Tskv.insert pointer names d.specified }
  | .rename source target => { d with mapping := Tskv.insert source target d.mapping }
  | .unique => { d with unique := true }
  | .newline => { d with newline := true }
  | .severity names => { d with severity := names }
  | .timestamp pattern => { d with timestamp := some pattern }
  | .format name spec => { d with formatting := Tskv.insert name spec d.formatting }

/-- A builder after the calls; `build` (src/formatter/json.cpp:500-502) takes its data. -/
def Data.build (calls : List Call) : Data := calls.foldl Data.call Data.init

/-! ## Configuration -/

/-- What `factory<json_t>::from` throws (src/formatter/json.cpp:508-577). -/
inductive ConfigError where
  | mismatch (e : Config.Mismatch)
  /-- `std::invalid_argument` (src/formatter/json.cpp:566-568). -/
  | unknown (key : Str)

/-- Switches (src/formatter/json.cpp:513-523). -/
def switch (o : Config.Opt) (c : Call) : Except ConfigError (List Call) :=
  match o.toBool with
  | .error e => .error (.mismatch e)
  | .ok (some true) => .ok [c]
  | .ok _ => .ok []

/-- The members of a section, one after the other; none if it is not there (src/formatter/json.cpp:525, 531, 537, 556). -/
def section_ (o : Config.Opt) (f : Str → Config.Node → Except ConfigError (List Call)) :
    Except ConfigError (List Call) :=
  match o with
  | none => .ok []
  | some n =>
    match n.eachMap with
    | .error e => .error (.mismatch e)
    | .ok ms => go ms
where
  go : List (Str × Config.Node) → Except ConfigError (List Call)
    | [] => .ok []
    | (k, n) :: ms =>
      match f k n with
      | .error e => .error e
      | .ok cs =>
        match go ms with
        | .error e => .error e
        | .ok ds => .ok (cs ++ ds)

/-- The members of `mapping` and `formatting` (src/formatter/json.cpp:525-535). -/
def pair (make : Str → Str → Call) (key : Str) (value : Config.Node) : Except ConfigError (List Call) :=
  match value.toString with
  | .error e => .error (.mismatch e)
  | .ok s => .ok [make key s]

/-- A list of strings (src/formatter/json.cpp:548-551, 561-564). -/
def strings (node : Config.Node) : Except ConfigError (List Str) :=
  match node.each with
  | .error e => .error (.mismatch e)
  | .ok ns =>
    match StringFmt.severityNames ns with
    | .error e => .error (.mismatch e)
    | .ok ss => .ok ss

/-- The members of `routing` (src/formatter/json.cpp:537-554). If the value is a string, whatever it is, the key becomes the
default route. -/
def routed (key : Str) (value : Config.Node) : Except ConfigError (List Call) :=
  match value.toString with
  | .ok _ => .ok [.route key]
  | .error _ =>
    match strings value with
    | .error e => .error e
    | .ok names => .ok [.routeNames key names]

/-- The members of `mutate` (src/formatter/json.cpp:556-570). -/
def mutated (key : Str) (value : Config.Node) : Except ConfigError (List Call) :=
  if key = ch! "timestamp" then
    match value.toString with
    | .error e => .error (.mismatch e)
    | .ok s => .ok [.timestamp s]
  else if key = ch! "severity" then
    match strings value with
    | .error e => .error e
    | .ok names => .ok [.severity names]
  else .error (.unknown key)

/-- One part of the configuration after the other (src/formatter/json.cpp:508-577). -/
def parts : List (Except ConfigError (List Call)) → Except ConfigError (List Call)
  | [] => .ok []
  | .error e :: _ => .error e
  | .ok cs :: rest =>
    match parts rest with
    | .error e => .error e
    | .ok ds => .ok (cs ++ ds)

/-- `factory<json_t>::from` (src/formatter/json.cpp:508-573). -/
def fromConfig (config : Config.Node) : Except ConfigError Data :=
  match parts [
    switch (config.key (ch! "unique")) .unique,
    switch (config.key (ch! "newline")) .newline,
    section_ (config.key (ch! "mapping")) (pair .rename),
    section_ (config.key (ch! "formatting")) (pair .format),
    section_ (config.key (ch! "routing")) routed,
    section_ (config.key (ch! "mutate")) mutated] with
  | .error e => .error e
  | .ok cs => .ok (Data.build cs)

end Blackhole.Json
