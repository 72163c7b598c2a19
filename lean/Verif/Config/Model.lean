import Verif.Base

/-!
# Configuration nodes (src/config/json.hpp, src/config/option.cpp)

The document is what rapidjson parsed (`JsonRead` models its parser). A parsed integer lies between -2^63 and 2^64 - 1
(rapidjson turns other integers into doubles), a double is kept as its bit pattern.
-/

namespace Blackhole.Config

/-- `rapidjson::Value`, as it is used in src/config/json.hpp:61-62. Members keep their order and may repeat a name. -/
inductive Json where
  | null
  | bool (b : Bool)
  | int (z : Int)
  | double (bits : Nat)
  | str (s : Str)
  | arr (items : List Json)
  | obj (members : List (Str × Json))

/-- What a C string shows of a `std::string` (src/config/json.hpp:172-173, `key.c_str()`; 137, `GetString()`):
everything before the first NUL. -/
def cstr (s : Str) : Str := s.takeWhile (· ≠ '\x00')

/-- `json_t` (src/config/json.hpp:61-73). -/
structure Node where
  value : Json
  cursor : Str

/-- `type_mismatch` (src/config/json.hpp:26-59). -/
structure Mismatch where
  cursor : Str
  expected : Str
  actual : Str
  deriving DecidableEq, Repr

/-- `option_t` (include/blackhole/config/option.hpp:18-30). -/
abbrev Opt := Option Node

/-- `type()` (src/config/json.hpp:190-208). -/
def Json.type : Json → Str
  | .null => ch! "null"
  | .bool _ => ch! "bool"
  | .int _ => ch! "number"
  | .double _ => ch! "number"
  | .str _ => ch! "string"
  | .arr _ => ch! "array"
  | .obj _ => ch! "object"

/-- `IsInt64` (src/config/json.hpp:79-81). -/
def Json.isInt64 : Json → Bool
  | .int z => decide (-2 ^ 63 ≤ z ∧ z < 2 ^ 63)
  | _ => false

/-- `IsUint64` (src/config/json.hpp:83-85). -/
def Json.isUint64 : Json → Bool
  | .int z => decide (0 ≤ z ∧ z < 2 ^ 64)
  | _ => false

/-- `type_mismatch(expected)` (src/config/json.hpp:186-188). -/
def Node.mismatch (n : Node) (expected : Str) : Mismatch :=
  { cursor := if n.cursor = [] then ch! "/" else n.cursor, expected := expected, actual := n.value.type }

/-- src/config/json.hpp:103-109. -/
def Node.toBool (n : Node) : Except Mismatch Bool :=
  match n.value with
  | .bool b => .ok b
  | _ => .error (n.mismatch (ch! "bool"))

/-- src/config/json.hpp:111-117. -/
def Node.toSint64 (n : Node) : Except Mismatch Int :=
  match n.value with
  | .int z => if n.value.isInt64 then .ok z else .error (n.mismatch (ch! "int64"))
  | _ => .error (n.mismatch (ch! "int64"))

/-- src/config/json.hpp:119-125. -/
def Node.toUint64 (n : Node) : Except Mismatch Int :=
  match n.value with
  | .int z => if n.value.isUint64 then .ok z else .error (n.mismatch (ch! "uint64"))
  | _ => .error (n.mismatch (ch! "uint64"))

/-- src/config/json.hpp:127-133. Integers are not doubles. -/
def Node.toDouble (n : Node) : Except Mismatch Nat :=
  match n.value with
  | .double bits => .ok bits
  | _ => .error (n.mismatch (ch! "double"))

/-- src/config/json.hpp:135-141. `GetString` gives a C string, from which the `std::string` is made. -/
def Node.toString (n : Node) : Except Mismatch Str :=
  match n.value with
  | .str s => .ok (cstr s)
  | _ => .error (n.mismatch (ch! "string"))

/-- The decimal digits of an index (`boost::lexical_cast<std::string>`, src/config/json.hpp:181). -/
def indexStr (i : Nat) : Str := Nat.toDigits 10 i

/-- `advance` (src/config/json.hpp:178-184). -/
def advanceKey (cursor key : Str) : Str := cursor ++ ch! "/" ++ key
/-- `advance(idx)` (src/config/json.hpp:180-182). -/
def advanceIdx (cursor : Str) (i : Nat) : Str := cursor ++ ch! "/" ++ indexStr i

/-- `operator[](idx)` (src/config/json.hpp:163-169). -/
def Node.idx (n : Node) (i : Nat) : Opt :=
  match n.value with
  | .arr items =>
    match items[i]? with
    | some v => some { value := v, cursor := advanceIdx n.cursor i }
    | none => none
  | _ => none

/-- `HasMember` and `operator[]` of rapidjson (src/config/json.hpp:172-173): the first member whose name is the C
string. -/
def member (key : Str) : List (Str × Json) → Option Json
  | [] => none
  | (k, v) :: rest => if k = key then some v else member key rest

/-- `operator[](key)` (src/config/json.hpp:171-177). -/
def Node.key (n : Node) (key : Str) : Opt :=
  match n.value with
  | .obj members =>
    match member (cstr key) members with
    | some v => some { value := v, cursor := advanceKey n.cursor key }
    | none => none
  | _ => none

/-- The children of an array with their cursors (src/config/json.hpp:148-150). -/
def children (cursor : Str) : Nat → List Json → List Node
  | _, [] => []
  | i, v :: vs => { value := v, cursor := advanceIdx cursor i } :: children cursor (i + 1) vs

/-- `each` without the calls: the nodes passed to the callback (src/config/json.hpp:143-151). -/
def Node.each (n : Node) : Except Mismatch (List Node) :=
  match n.value with
  | .arr items => .ok (children n.cursor 0 items)
  | _ => .error (n.mismatch (ch! "array"))

/-- `each_map` without the calls (src/config/json.hpp:153-161); names are read as C strings. -/
def Node.eachMap (n : Node) : Except Mismatch (List (Str × Node)) :=
  match n.value with
  | .obj members =>
    .ok (members.map fun (k, v) => (cstr k, { value := v, cursor := advanceKey n.cursor (cstr k) }))
  | _ => .error (n.mismatch (ch! "object"))

/-! ## Options (src/config/option.cpp): a missing node gives a missing result -/

/-- `to` (src/config/option.cpp:80-87). -/
def Opt.to {α : Type} (o : Opt) (f : Node → Except Mismatch α) : Except Mismatch (Option α) :=
  match o with
  | some n => (f n).map some
  | none => .ok none

/-- src/config/option.cpp:26-54. -/
def Opt.toBool (o : Opt) : Except Mismatch (Option Bool) := o.to Node.toBool
/-- `to_sint64` (src/config/option.cpp:32-36). -/
def Opt.toSint64 (o : Opt) : Except Mismatch (Option Int) := o.to Node.toSint64
/-- `to_uint64` (src/config/option.cpp:38-42). -/
def Opt.toUint64 (o : Opt) : Except Mismatch (Option Int) := o.to Node.toUint64
/-- `to_double` (src/config/option.cpp:44-48). -/
def Opt.toDouble (o : Opt) : Except Mismatch (Option Nat) := o.to Node.toDouble
/-- `to_string` (src/config/option.cpp:50-54). -/
def Opt.toString (o : Opt) : Except Mismatch (Option Str) := o.to Node.toString

/-- src/config/option.cpp:56-60. -/
def Opt.each (o : Opt) : Except Mismatch (List Node) :=
  match o with
  | some n => n.each
  | none => .ok []

/-- src/config/option.cpp:62-66. -/
def Opt.eachMap (o : Opt) : Except Mismatch (List (Str × Node)) :=
  match o with
  | some n => n.eachMap
  | none => .ok []

/-- src/config/option.cpp:68-78. -/
def Opt.idx (o : Opt) (i : Nat) : Opt :=
  match o with
  | some n => n.idx i
  | none => none

/-- `operator[](key)` (src/config/option.cpp:74-78). -/
def Opt.key (o : Opt) (k : Str) : Opt :=
  match o with
  | some n => n.key k
  | none => none

/-- One step of navigation: `operator[]` with a key or an index (src/config/option.cpp:68-78). -/
inductive Step where
  | key (k : Str)
  | idx (i : Nat)
  deriving DecidableEq, Repr

/-- One step of navigation (src/config/option.cpp:68-78). -/
def Opt.step (o : Opt) : Step → Opt
  | .key k => o.key k
  | .idx i => o.idx i

/-- `config[a][b]...` (src/config/option.cpp:68-78, repeated). -/
def Opt.path (o : Opt) (p : List Step) : Opt := p.foldl Opt.step o

/-- The root node of a document (src/config/json.cpp:23-40). -/
def Node.root (doc : Json) : Node := { value := doc, cursor := [] }

/-- `config[a][b]...` on the root node of a document (src/config/json.hpp:163-177, src/config/option.cpp:68-78). -/
def lookup (doc : Json) (p : List Step) : Opt := Opt.path (some (Node.root doc)) p

end Blackhole.Config
