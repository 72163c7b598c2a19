import Verif.Fmt.Model

/-!
# Arguments of messages (include/blackhole/extensions/format.hpp, src/format.cpp)

How the arguments of a call become values with a type, how they are packed into a list, how a field finds its argument
by position or by name, and how pointers, user types and named arguments are written. The parts that look at the
format string only are those of `Verif.Fmt.Model`. Wide characters (they do not compile) and `long double` are left out.
-/

namespace Blackhole.FmtArgs

open Fmt (Err Spec Next peek isDigit isNameStart parseNonneg parseAlign parseSign parseHash parseZero parseType writeInt
  unknownType)

/-! ## Values -/

/-- A value and its type (include/blackhole/extensions/format.hpp:866-899), unless it is a named argument. -/
inductive Val where
  /-- Numbers, `bool`, `char` and strings. -/
  | arg (a : Fmt.Arg)
  /-- An `unsigned char`: type `CHAR` with a code from 0 to 255. -/
  | uchar (c : Char)
  /-- An address. -/
  | ptr (n : Nat)
  /-- An object of a user type; what its `operator<<` prints. -/
  | custom (text : Str)
  deriving DecidableEq, Repr

/-- What is passed: a value, or `fmt::arg(name, value)` (include/blackhole/extensions/format.hpp:1126-1134). -/
inductive Passed where
  | val (v : Val)
  | named (name : Str) (v : Val)
  deriving DecidableEq, Repr

/-- `Arg::Type` (include/blackhole/extensions/format.hpp:892-899). -/
def Val.type : Val → Nat
  | .arg (.int _) => 2
  | .arg (.uint _) => 3
  | .arg (.long _) => 4
  | .arg (.ulong _) => 5
  | .arg (.bool _) => 6
  | .arg (.char _) => 7
  | .uchar _ => 7
  | .arg (.double _) => 8
  | .arg (.cstr _) => 10
  | .arg (.str _ _) => 11
  | .arg .strNull => 11
  | .ptr _ => 13
  | .custom _ => 14

/-- `NAMED_ARG` is 1 (include/blackhole/extensions/format.hpp:892-900); `NONE` is 0. -/
def Passed.type : Passed → Nat
  | .val v => v.type
  | .named _ _ => 1

/-- The integer types of C++ other than `bool` and the character types
(include/blackhole/extensions/format.hpp:1018-1057, the overloads of `MakeValue`). -/
inductive IntType where
  | short | ushort | int | uint | long | ulong | llong | ullong
  deriving DecidableEq, Repr

/-- Arguments as the user writes them (include/blackhole/extensions/format.hpp:1018-1124, the overloads of
`MakeValue`). `float` becomes `double` without loss and is not distinguished from it. -/
inductive CArg where
  | integer (t : IntType) (z : Int)
  | bool (b : Bool)
  | char (c : Char)
  /-- `signed char`, for example `std::int8_t`. -/
  | schar (c : Char)
  /-- `unsigned char`, for example `std::uint8_t`. -/
  | uchar (c : Char)
  | double (bits : Nat)
  | cstr (s : Str)
  | string (s : Str)
  | pointer (n : Nat)
  /-- An enumerator, or an object of a class that converts to an integer, for example `std::atomic<std::uint64_t>`. -/
  | convertible (z : Int)
  /-- An object with `operator<<`, or a function that prints to a stream. -/
  | printable (text : Str)
  deriving DecidableEq, Repr

/-- A number as an `int` of 32 bits (include/blackhole/extensions/format.hpp:1027-1031, `int_value`). -/
def wrap32 (z : Int) : Int := Int.bmod z (2 ^ 32)

/-- `MakeValue` (include/blackhole/extensions/format.hpp:971-1123) where `long` has 64 bits. -/
def make : CArg → Val
  | .integer .short z => .arg (.int z)
  | .integer .int z => .arg (.int z)
  | .integer .ushort z => .arg (.uint z.toNat)
  | .integer .uint z => .arg (.uint z.toNat)
  | .integer .long z => .arg (.long z)
  | .integer .llong z => .arg (.long z)
  | .integer .ulong z => .arg (.ulong z.toNat)
  | .integer .ullong z => .arg (.ulong z.toNat)
  | .bool b => .arg (.bool b)
  | .char c => .arg (.char c)
  | .schar c => .arg (.char c)
  | .uchar c => .uchar c
  | .double bits => .arg (.double bits)
  | .cstr s => .arg (.cstr s)
  | .string s => .arg (.str s ['\x00'])
  | .pointer n => .ptr n
  | .convertible z => .arg (.int (wrap32 z))
  | .printable text => .custom text

/-! ## The packed list -/

/-- An element of an array of `Arg` (include/blackhole/extensions/format.hpp:905-907, 1683-1693); `none` has not been
written. -/
structure Slot where
  value : Option Passed
  type : Option Nat

/-- The union of `values_` and `args_` (include/blackhole/extensions/format.hpp:1274-1282). -/
inductive Store where
  | values (l : List (Option Passed))
  | args (l : List Slot)

/-- `ArgList` (include/blackhole/extensions/format.hpp:1269-1330). -/
structure ArgList where
  types : Nat
  store : Store

/-- `make_type` (include/blackhole/extensions/format.hpp:1680-1681, 1696-1699) in 64 bits; the case of one argument is
written with an empty tail. -/
def makeType : List Passed → Nat
  | [] => 0
  | a :: tail => a.type ||| ((makeType tail <<< 4) % 2 ^ 64)

/-- `make_arg_list` (include/blackhole/extensions/format.hpp:1733-1740) with `ArgArray` (1686-1696), `set_types`
(1706-1724) and `store_args` (1726-1731). The types in the array are set only for more than 16 arguments. -/
def makeArgList (args : List Passed) : ArgList :=
  let n := args.length
  { types := makeType args
    store :=
      if n < 16 then .values (args.map some ++ if n = 0 then [none] else [])
      else .args ((args.map fun a => { value := some a, type := if n > 16 then some a.type else none })
        ++ [{ value := none, type := some 0 }]) }

/-- `type(index)` (include/blackhole/extensions/format.hpp:1284-1289). -/
def ArgList.type (l : ArgList) (i : Nat) : Nat :=
  (l.types &&& ((15 <<< (i * 4)) % 2 ^ 64)) >>> (i * 4)

/-- A value is read as what its type says (include/blackhole/extensions/format.hpp:868-890, the union `Value`);
anything else is undefined. -/
def readAs (t : Nat) : Option Passed → Except UB Passed
  | none => .error .uninitialised
  | some a => if a.type = t then .ok a else .error .uninitialised

/-- `values_[i]` (include/blackhole/extensions/format.hpp:1314) -/
def ArgList.valueAt (l : ArgList) (i : Nat) : Except UB (Option Passed) :=
  match l.store with
  | .values vs =>
    match vs[i]? with
    | some v => .ok v
    | none => .error .outOfBounds
  | .args _ => .error .uninitialised

/-- `args_[i]` (include/blackhole/extensions/format.hpp:1314, 1328) -/
def ArgList.argAt (l : ArgList) (i : Nat) : Except UB Slot :=
  match l.store with
  | .args as =>
    match as[i]? with
    | some s => .ok s
    | none => .error .outOfBounds
  | .values _ => .error .uninitialised

/-- `args_[i].type` (include/blackhole/extensions/format.hpp:1325) -/
def ArgList.typeAt (l : ArgList) (i : Nat) : Except UB Nat :=
  match l.argAt i with
  | .error u => .error u
  | .ok s =>
    match s.type with
    | some t => .ok t
    | none => .error .uninitialised

/-- The scan for the end of the list (include/blackhole/extensions/format.hpp:1324-1327): whether none of `n` elements
from `i` on marks the end. -/
def ArgList.scan (l : ArgList) : (n i : Nat) → Except UB Bool
  | 0, _ => .ok true
  | n + 1, i =>
    match l.typeAt i with
    | .error u => .error u
    | .ok t => if t = 0 then .ok false else l.scan n (i + 1)

/-- `operator[]` (include/blackhole/extensions/format.hpp:1306-1329); none is an argument of type `NONE`. -/
def ArgList.get (l : ArgList) (i : Nat) : Except UB (Option Passed) :=
  let useValues := l.type 15 = 0
  if i < 16 then
    let t := l.type i
    if t = 0 then .ok none
    else if useValues then
      match l.valueAt i with
      | .error u => .error u
      | .ok v => (readAs t v).map some
    else
      match l.argAt i with
      | .error u => .error u
      | .ok s => (readAs t s.value).map some
  else if useValues then .ok none
  else
    match l.scan (i + 1 - 16) 16 with
    | .error u => .error u
    | .ok false => .ok none
    | .ok true =>
      match l.argAt i, l.typeAt i with
      | .ok s, .ok t => (readAs t s.value).map some
      | .error u, _ => .error u
      | _, .error u => .error u

/-! ## The map of names -/

/-- `std::map<BasicStringRef, Arg>` (include/blackhole/extensions/format.hpp:1339-1342): only `insert` and `find` are
used on it. -/
abbrev Map := List (Str × Val)

/-- `map_.insert` (src/format.cpp:754, 766, 775): an existing element stays. -/
def Map.insert (m : Map) (name : Str) (v : Val) : Map := if (m.lookup name).isSome then m else m ++ [(name, v)]

/-- A named argument is inserted (src/format.cpp:752-754, 764-766). -/
def insertNamed (m : Map) : Except UB Passed → Except UB Map
  | .error u => .error u
  | .ok (.named name v) => .ok (m.insert name v)
  | .ok (.val _) => .error .uninitialised

/-- The loop over values (src/format.cpp:746-759); it ends at the latest at the 16th type, which is `NONE`. -/
def initValues (l : ArgList) : (fuel i : Nat) → Map → Except UB Map
  | 0, _, _ => .error .outOfBounds
  | fuel + 1, i, m =>
    let t := l.type i
    if t = 0 then .ok m
    else if t = 1 then
      match l.valueAt i with
      | .error u => .error u
      | .ok v =>
        match insertNamed m (readAs 1 v) with
        | .error u => .error u
        | .ok m => initValues l fuel (i + 1) m
    else initValues l fuel (i + 1) m

/-- The first loop over arguments (src/format.cpp:762-768), `n` more. -/
def initPacked (l : ArgList) : (n i : Nat) → Map → Except UB Map
  | 0, _, m => .ok m
  | n + 1, i, m =>
    if l.type i = 1 then
      match l.argAt i with
      | .error u => .error u
      | .ok s =>
        match insertNamed m (readAs 1 s.value) with
        | .error u => .error u
        | .ok m => initPacked l n (i + 1) m
    else initPacked l n (i + 1) m

/-- The second loop over arguments (src/format.cpp:769-780); every turn reads another element, of which there are at
most `fuel`. -/
def initRest (l : ArgList) : (fuel i : Nat) → Map → Except UB Map
  | 0, _, _ => .error .outOfBounds
  | fuel + 1, i, m =>
    match l.typeAt i, l.argAt i with
    | .error u, _ => .error u
    | _, .error u => .error u
    | .ok t, .ok s =>
      if t = 0 then .ok m
      else if t = 1 then
        match insertNamed m (readAs 1 s.value) with
        | .error u => .error u
        | .ok m => initRest l fuel (i + 1) m
      else initRest l fuel (i + 1) m

/-- How many elements the array has (include/blackhole/extensions/format.hpp:1274-1282). -/
def Store.size : Store → Nat
  | .values l => l.length
  | .args l => l.length

/-- `ArgMap::init` (src/format.cpp:738-781). The map is kept between uses; it is computed again here. -/
def initMap (l : ArgList) : Except UB Map :=
  if l.type 15 = 0 then initValues l 16 0 []
  else
    match initPacked l 16 0 [] with
    | .error u => .error u
    | .ok m => initRest l (l.store.size) 16 m

/-- `map_.find` (include/blackhole/extensions/format.hpp:1347-1350). -/
def findName (l : ArgList) (name : Str) : Except UB (Option Val) := (initMap l).map fun m => m.lookup name

/-! ## Fields -/

/-- The error of an index after an automatic one (src/format.cpp:876-878). -/
def cannotSwitch : Err := .format (ch! "cannot switch from automatic to manual argument indexing")

/-- `do_get_arg` (src/format.cpp:852-865): a named argument stands for its value. -/
def doGetArg (l : ArgList) (i : Nat) : Except Err Val :=
  match l.get i with
  | .error u => .error (.ub u)
  | .ok none => .error (.format (ch! "argument index out of range"))
  | .ok (some (.val v)) => .ok v
  | .ok (some (.named _ v)) => .ok v

/-- `parse_arg_index` (src/format.cpp:825-835) with `next_arg` and `get_arg` (867-887). -/
def parseArgIndex (l : ArgList) (next : Next) (s : Str) : Except Err (Val × Next × Str) :=
  let fail (s : Str) : Err → Except Err (Val × Next × Str)
    | .format e => .error (.format (if peek s ≠ '}' ∧ peek s ≠ ':' then ch! "invalid format string" else e))
    | .ub u => .error (.ub u)
  if ¬ isDigit (peek s) then
    match next with
    | some i =>
      match doGetArg l i with
      | .ok a => .ok (a, some (i + 1), s)
      | .error e => fail s e
    | none => fail s (.format (ch! "cannot switch from manual to automatic argument indexing"))
  else
    match parseNonneg s with
    | .error e => .error e
    | .ok (i, s) =>
      match next with
      | some (_ + 1) => fail s cannotSwitch
      | _ =>
        match doGetArg l i with
        | .ok a => .ok (a, none, s)
        | .error e => fail s e

/-- The characters of a name after the first (src/format.cpp:842-844). -/
def isNameChar (c : Char) : Bool := isNameStart c || isDigit c

/-- `parse_arg_name` (src/format.cpp:837-850) with `get_arg` (812-822). -/
def parseArgName (l : ArgList) (next : Next) (s : Str) : Except Err (Val × Next × Str) :=
  let name := peek s :: s.tail.takeWhile isNameChar
  let rest := s.tail.dropWhile isNameChar
  match next with
  | some (_ + 1) => .error cannotSwitch
  | _ =>
    match findName l name with
    | .error u => .error (.ub u)
    | .ok none => .error (.format (ch! "argument not found"))
    | .ok (some v) => .ok (v, none, rest)

/-- Choosing the argument of a field (src/format.cpp:1245). -/
def parseArg (l : ArgList) (next : Next) (s : Str) : Except Err (Val × Next × Str) :=
  if isNameStart (peek s) then parseArgName l next s else parseArgIndex l next s

/-- The argument as far as checks of numeric and signed arguments go: a pointer is not numeric. A user type never gets
there (src/format.cpp:1066-1069). -/
def Val.asArg : Val → Fmt.Arg
  | .arg a => a
  | .uchar c => .char c
  | .ptr _ => .strNull
  | .custom _ => .strNull

/-- A width or precision given by an argument (src/format.cpp:1139-1168, 1177-1206). -/
def argNumber (l : ArgList) (next : Next) (what : Str) (s : Str) : Except Err (Nat × Next × Str) := do
  let (a, next, s) ← parseArg l next s
  match s with
  | '}' :: s =>
    let v ← match a with
      | .arg (.int z) | .arg (.long z) => if z < 0 then .error (.format (ch! "negative " ++ what)) else .ok z.toNat
      | .arg (.uint n) | .arg (.ulong n) => .ok n
      | _ => .error (.format (what ++ ch! " is not integer"))
    if v > 2 ^ 31 - 1 then .error (.format (ch! "number is too big")) else .ok (v, next, s)
  | _ => .error (.format (ch! "invalid format string"))

/-- src/format.cpp:1136-1169. -/
def parseWidth (l : ArgList) (next : Next) (spec : Spec) (s : Str) : Except Err (Spec × Next × Str) :=
  if isDigit (peek s) then
    (parseNonneg s).map fun (v, s) => ({ spec with width := v }, next, s)
  else
    match s with
    | '{' :: s => (argNumber l next (ch! "width") s).map fun (v, next, s) => ({ spec with width := v }, next, s)
    | _ => .ok (spec, next, s)

/-- The check after a precision (src/format.cpp:1210-1214). -/
def noPrecision : Val → Option Str
  | .ptr _ => some (ch! "precision not allowed in pointer format specifier")
  | v => if v.asArg.isInteger then some (ch! "precision not allowed in integer format specifier") else none

/-- src/format.cpp:1171-1215. -/
def parsePrecision (l : ArgList) (a : Val) (next : Next) (spec : Spec) (s : Str) : Except Err (Spec × Next × Str) :=
  match s with
  | '.' :: s => do
    let (v, next, s) ←
      if isDigit (peek s) then (parseNonneg s).map fun (v, s) => (v, next, s)
      else
        match s with
        | '{' :: s => argNumber l next (ch! "precision") s
        | _ => .error (.format (ch! "missing precision specifier"))
    match noPrecision a with
    | some m => .error (.format m)
    | none => .ok ({ spec with precision := some v }, next, s)
  | _ => .ok (spec, next, s)

/-- The specification after the colon (src/format.cpp:1070-1220). -/
def parseSpec (l : ArgList) (a : Val) (next : Next) (s : Str) : Except Err (Spec × Next × Str) := do
  let (spec, s) ← parseAlign a.asArg {} s
  let (spec, s) ← parseSign a.asArg spec s
  let (spec, s) ← parseHash a.asArg spec s
  let (spec, s) ← parseZero a.asArg spec s
  let (spec, next, s) ← parseWidth l next spec s
  let (spec, next, s) ← parsePrecision l a next spec s
  let (spec, s) := parseType spec s
  .ok (spec, next, s)

/-- The visitor (src/format.cpp:433-494); a user type is visited elsewhere. -/
def writeVal (fd : Spec → Nat → Except Err Str) (spec : Spec) : Val → Except Err Str
  | .arg a => Fmt.writeArg fd spec a
  | .uchar c =>
    match spec.type with
    | some t => if t ≠ 'c' then writeInt 32 true spec c.toNat else Fmt.writeArg.char spec c
    | none => Fmt.writeArg.char spec c
  | .ptr n =>
    match spec.type with
    | some c => if c ≠ 'p' then .error (unknownType c (ch! "pointer")) else address n
    | none => address n
  | .custom _ => .error (.ub .assertion)
where
  address (n : Nat) : Except Err Str :=
    writeInt 64 false { spec with sign := false, plus := false, minus := false, hash := true, type := some 'x' } n

/-- `format(format_str, arg)` (src/format.cpp:1061-1228) of an argument that is not of a user type. -/
def formatPlain (fd : Spec → Nat → Except Err Str) (l : ArgList) (a : Val) (next : Next) (s : Str) :
    Except Err (Str × Next × Str) :=
  match (if peek s = ':' then parseSpec l a next s.tail else .ok ({}, next, s)) with
  | .error e => .error e
  | .ok (spec, next, s) =>
    if peek s = '}' then
      match writeVal fd spec a with
      | .error e => .error e
      | .ok out => .ok (out, next, s.tail)
    else .error (.format (ch! "missing '}' in format string"))

/-- `format(f, format_str, value)` (include/blackhole/extensions/format.hpp:2645-2676): a user type is printed to a
string first. -/
def printed (text : Str) : Val := .arg (.str text ['\x00'])

/-- `format(format_str, arg)` (src/format.cpp:1061-1228): with a colon a user type goes its own way (1066-1069), without
it goes through the visitor, which begins again at the closing brace (509-511, 1226). -/
def formatField (fd : Spec → Nat → Except Err Str) (l : ArgList) (a : Val) (next : Next) (s : Str) :
    Except Err (Str × Next × Str) :=
  match a with
  | .custom text =>
    if peek s = ':' then formatPlain fd l (printed text) next s
    else if peek s = '}' then
      match formatPlain fd l (printed text) next s with
      | .error e => .error e
      | .ok (out, next, _) => .ok (out, next, s.tail)
    else .error (.format (ch! "missing '}' in format string"))
  | a => formatPlain fd l a next s

/-- A replacement field (src/format.cpp:1245-1246). -/
def field (fd : Spec → Nat → Except Err Str) (l : ArgList) (next : Next) (s : Str) : Except Err (Str × Next × Str) :=
  match parseArg l next s with
  | .error e => .error e
  | .ok (a, next, s) => formatField fd l a next s

/-- `format(format_str)` (src/format.cpp:1230-1249) on what is left of the C string; `fuel` is its length. -/
def formatLoop (fd : Spec → Nat → Except Err Str) (l : ArgList) : (fuel : Nat) → Next → Str → Except Err Str
  | _, _, [] => .ok []
  | 0, _, _ => .error (.ub .outOfBounds)
  | fuel + 1, next, c :: s =>
    if c ≠ '{' ∧ c ≠ '}' then (formatLoop fd l fuel next s).map (c :: ·)
    else if peek s = c then (formatLoop fd l fuel next s.tail).map (c :: ·)
    else if c = '}' then .error (.format (ch! "unmatched '}' in format string"))
    else
      match field fd l next s with
      | .error e => .error e
      | .ok (out, next, s) => (formatLoop fd l fuel next s).map (out ++ ·)

/-- `writer.write(format, args...)` (src/format.cpp:1231-1249); the format is a C string. -/
def format (fd : Spec → Nat → Except Err Str) (pattern : Str) (args : List Passed) : Except Err Str :=
  formatLoop fd (makeArgList args) (Config.cstr pattern).length (some 0) (Config.cstr pattern)

end Blackhole.FmtArgs
