import Verif.Registry.Model

/-!
# Reading a configuration text (src/config/json.cpp)

`factory<json_t>::initialize` gives a stream to rapidjson's recursive parser with comments and trailing commas allowed
(src/config/json.cpp:39-48). rapidjson is not in the checkout: this is the parser of its version 1.1.0, the first one that has
these flags, function by function. A `Str` is what is left of the stream, byte by byte; the wrapper of the stream gives NUL
at its end, and the parser takes NUL for the end (`Peek`).

Simplifications: memory and stack suffice; integers are collected in 64 bits at once, not first in 32; what a number that is
not an integer of 64 bits becomes is a parameter (`toDouble`, `none` if it is too large), which is asked when all of the number
was read.
-/

namespace Blackhole.JsonRead

open Config (Json)

/-- `rapidjson::ParseErrorCode`, as far as this parser uses it (src/config/json.cpp:43-47). `fuel` is not an outcome of the program: it
would mean that the model stopped too early (it never does: `C100_total`). -/
inductive Code where
  | empty
  | notSingular
  | valueInvalid
  | missName
  | missColon
  | missCommaOrCurly
  | missCommaOrSquare
  | invalidHex
  | surrogate
  | escapeInvalid
  | missQuote
  | tooBig
  | missFraction
  | missExponent
  | syntax
  | fuel
  deriving DecidableEq, Repr

/-- An error and what is left of the stream where it is reported (`GetParseError` and `GetErrorOffset`,
src/config/json.cpp:43-47). -/
abbrev Err := Code × Str

/-- `Peek` of `IStreamWrapper` (src/config/json.cpp:40): NUL at the end. -/
def peek : Str → Char
  | [] => '\x00'
  | c :: _ => c

/-- `Consume` (called by the parser of src/config/json.cpp:41). -/
def consume (c : Char) : Str → Option Str
  | d :: r => if d = c then some r else none
  | [] => none

/-- The characters that `SkipWhitespace` skips (called by the parser of src/config/json.cpp:41). -/
def isSpace (c : Char) : Bool := c == ' ' || c == '\n' || c == '\r' || c == '\t'

/-- The rest of a comment of the form `/* */` (`kParseCommentsFlag`, src/config/json.cpp:41). -/
def blockEnd : Str → Except Err Str
  | [] => .error (.syntax, [])
  | c :: r =>
    if c = '\x00' then .error (.syntax, c :: r)
    else if c = '*' then
      match consume '/' r with
      | some r => .ok r
      | none => blockEnd r
    else blockEnd r

/-- The rest of a comment of the form `//` (`kParseCommentsFlag`, src/config/json.cpp:41). -/
def lineEnd : Str → Str
  | [] => []
  | c :: r => if c = '\x00' then c :: r else if c = '\n' then r else lineEnd r

/-- The loop in `SkipWhitespaceAndComments` (`kParseCommentsFlag`, src/config/json.cpp:41). -/
def comments : Nat → Str → Except Err Str
  | 0, s => .error (.fuel, s)
  | n + 1, s =>
    match consume '/' s with
    | none => .ok s
    | some r =>
      match consume '*' r with
      | some r =>
        match blockEnd r with
        | .error e => .error e
        | .ok r => comments n (r.dropWhile isSpace)
      | none =>
        match consume '/' r with
        | some r => comments n ((lineEnd r).dropWhile isSpace)
        | none => .error (.syntax, r)

/-- `SkipWhitespaceAndComments` (src/config/json.cpp:41). -/
def skip (s : Str) : Except Err Str := comments (s.length + 1) (s.dropWhile isSpace)

/-- A digit of a number in hexadecimal (`ParseHex4`, src/config/json.cpp:41). -/
def hexVal (c : Char) : Option Nat :=
  if '0' ≤ c ∧ c ≤ '9' then some (c.toNat - 48)
  else if 'A' ≤ c ∧ c ≤ 'F' then some (c.toNat - 55)
  else if 'a' ≤ c ∧ c ≤ 'f' then some (c.toNat - 87)
  else none

/-- `ParseHex4` (src/config/json.cpp:41): so many digits more, after those that were read. Errors are reported at the
escape. -/
def hex4 (esc : Str) : Nat → Nat → Str → Except Err (Nat × Str)
  | 0, v, s => .ok (v, s)
  | _ + 1, _, [] => .error (.invalidHex, esc)
  | k + 1, v, c :: r =>
    match hexVal c with
    | none => .error (.invalidHex, esc)
    | some d => hex4 esc k (16 * v + d) r

/-- `UTF8<>::Encode` (src/config/json.cpp:41). -/
def utf8 (n : Nat) : Str :=
  if n < 0x80 then [Char.ofNat n]
  else if n < 0x800 then [Char.ofNat (0xC0 + n / 64), Char.ofNat (0x80 + n % 64)]
  else if n < 0x10000 then
    [Char.ofNat (0xE0 + n / 4096), Char.ofNat (0x80 + n / 64 % 64), Char.ofNat (0x80 + n % 64)]
  else
    [Char.ofNat (0xF0 + n / 262144), Char.ofNat (0x80 + n / 4096 % 64), Char.ofNat (0x80 + n / 64 % 64),
      Char.ofNat (0x80 + n % 64)]

/-- The table `escape` in `ParseStringToStream` (src/config/json.cpp:41). -/
def simple (c : Char) : Option Char :=
  if c = '"' then some '"'
  else if c = '/' then some '/'
  else if c = '\\' then some '\\'
  else if c = 'b' then some '\x08'
  else if c = 'f' then some '\x0c'
  else if c = 'n' then some '\n'
  else if c = 'r' then some '\r'
  else if c = 't' then some '\t'
  else none

/-- An escape sequence in `ParseStringToStream` (src/config/json.cpp:41), after its backslash. -/
def escape (esc : Str) : Str → Except Err (Str × Str)
  | [] => .error (.escapeInvalid, esc)
  | c :: r =>
    match simple c with
    | some e => .ok ([e], r)
    | none =>
      if c = 'u' then
        match hex4 esc 4 0 r with
        | .error e => .error e
        | .ok (u, r) =>
          if 0xD800 ≤ u ∧ u ≤ 0xDBFF then
            match (consume '\\' r).bind (consume 'u') with
            | none => .error (.surrogate, esc)
            | some r =>
              match hex4 esc 4 0 r with
              | .error e => .error e
              | .ok (l, r) =>
                if l < 0xDC00 ∨ 0xDFFF < l then .error (.surrogate, esc)
                else .ok (utf8 ((u - 0xD800) * 1024 + (l - 0xDC00) + 0x10000), r)
          else .ok (utf8 u, r)
      else .error (.escapeInvalid, esc)

/-- `ParseStringToStream` after the opening quote (src/config/json.cpp:41). -/
def chars : Nat → Str → Except Err (Str × Str)
  | 0, s => .error (.fuel, s)
  | _ + 1, [] => .error (.missQuote, [])
  | n + 1, c :: r =>
    if c = '\\' then
      match escape (c :: r) r with
      | .error e => .error e
      | .ok (b, r) =>
        match chars n r with
        | .error e => .error e
        | .ok (s, r) => .ok (b ++ s, r)
    else if c = '"' then .ok ([], r)
    else if c = '\x00' then .error (.missQuote, c :: r)
    else if c.toNat < 0x20 then .error (.escapeInvalid, c :: r)
    else
      match chars n r with
      | .error e => .error e
      | .ok (s, r) => .ok (c :: s, r)

/-- `ParseString` after the opening quote (src/config/json.cpp:41). -/
def string (s : Str) : Except Err (Str × Str) := chars (s.length + 1) s

/-- The digits in `ParseNumber` (src/config/json.cpp:41). -/
def isDigit (c : Char) : Bool := decide ('0' ≤ c ∧ c ≤ '9')

/-- The loops over the digits before the point in `ParseNumber` (src/config/json.cpp:41): `none` if the number has to become
a double. `limit` is 922337203685477580 and `last` is `8` after a minus, 1844674407370955161 and `5` without one. -/
def collect (limit : Nat) (last : Char) : Nat → Str → Option Nat
  | i, [] => some i
  | i, c :: cs =>
    if limit ≤ i ∧ (i ≠ limit ∨ last < c) then none else collect limit last (i * 10 + (c.toNat - 48)) cs

/-- The digits before the point (`ParseNumber`, src/config/json.cpp:41): a zero stands alone. -/
def whole : Str → Except Err (Str × Str)
  | [] => .error (.valueInvalid, [])
  | c :: r =>
    if c = '0' then .ok ([c], r)
    else if isDigit c then .ok (c :: r.takeWhile isDigit, r.dropWhile isDigit)
    else .error (.valueInvalid, c :: r)

/-- The fraction (`ParseNumber`, src/config/json.cpp:41): its text with the point, or nothing. -/
def fraction (s : Str) : Except Err (Str × Str) :=
  match consume '.' s with
  | none => .ok ([], s)
  | some r => if isDigit (peek r) then .ok ('.' :: r.takeWhile isDigit, r.dropWhile isDigit) else .error (.missFraction, r)

/-- The sign of an exponent (`ParseNumber`, src/config/json.cpp:41). -/
def exponentSign : Str → Str × Str
  | [] => ([], [])
  | c :: r => if c = '+' ∨ c = '-' then ([c], r) else ([], c :: r)

/-- The exponent (`ParseNumber`, src/config/json.cpp:41): its text with the letter, or nothing. -/
def exponent : Str → Except Err (Str × Str)
  | [] => .ok ([], [])
  | c :: r =>
    if c = 'e' ∨ c = 'E' then
      match exponentSign r with
      | (sign, r) =>
        if isDigit (peek r) then .ok (c :: sign ++ r.takeWhile isDigit, r.dropWhile isDigit) else .error (.missExponent, r)
    else .ok ([], c :: r)

/-- The minus (`ParseNumber`, src/config/json.cpp:41). -/
def minus (s : Str) : Bool × Str :=
  match consume '-' s with
  | some r => (true, r)
  | none => (false, s)

/-- `ParseNumber` (src/config/json.cpp:41). -/
def number (toDouble : Str → Option Nat) (start : Str) : Except Err (Json × Str) :=
  match minus start with
  | (neg, s) =>
    match whole s with
    | .error e => .error e
    | .ok (ds, s) =>
      match fraction s with
      | .error e => .error e
      | .ok (f, s) =>
        match exponent s with
        | .error e => .error e
        | .ok (e, s) =>
          match f, e, (if neg then collect 922337203685477580 '8' 0 ds else collect 1844674407370955161 '5' 0 ds) with
          | [], [], some i => .ok (.int (if neg then -(i : Int) else i), s)
          | _, _, _ =>
            match toDouble ((if neg then ['-'] else []) ++ ds ++ f ++ e) with
            | some bits => .ok (.double bits, s)
            | none => .error (.tooBig, start)

/-- The rest of `null`, `true` or `false` (`ParseNull`, `ParseTrue`, `ParseFalse`; src/config/json.cpp:41). -/
def literal (v : Json) : Str → Str → Except Err (Json × Str)
  | [], s => .ok (v, s)
  | w :: ws, s =>
    match consume w s with
    | some r => literal v ws r
    | none => .error (.valueInvalid, s)

mutual

/-- `ParseValue` with `ParseObject` and `ParseArray` up to their first elements (src/config/json.cpp:41). -/
def value (toDouble : Str → Option Nat) : Nat → Str → Except Err (Json × Str)
  | 0, s => .error (.fuel, s)
  | n + 1, s =>
    match s with
    | 'n' :: r => literal .null ['u', 'l', 'l'] r
    | 't' :: r => literal (.bool true) ['r', 'u', 'e'] r
    | 'f' :: r => literal (.bool false) ['a', 'l', 's', 'e'] r
    | '"' :: r =>
      match string r with
      | .error e => .error e
      | .ok (s, r) => .ok (.str s, r)
    | '{' :: r =>
      match skip r with
      | .error e => .error e
      | .ok r =>
        match consume '}' r with
        | some r => .ok (.obj [], r)
        | none =>
          match members toDouble n r with
          | .error e => .error e
          | .ok (ms, r) => .ok (.obj ms, r)
    | '[' :: r =>
      match skip r with
      | .error e => .error e
      | .ok r =>
        match consume ']' r with
        | some r => .ok (.arr [], r)
        | none =>
          match elements toDouble n r with
          | .error e => .error e
          | .ok (vs, r) => .ok (.arr vs, r)
    | s => number toDouble s

/-- The loop in `ParseArray` (`kParseTrailingCommasFlag`, src/config/json.cpp:41). -/
def elements (toDouble : Str → Option Nat) : Nat → Str → Except Err (List Json × Str)
  | 0, s => .error (.fuel, s)
  | n + 1, s =>
    match value toDouble n s with
    | .error e => .error e
    | .ok (v, r) =>
      match skip r with
      | .error e => .error e
      | .ok r =>
        match consume ',' r with
        | some r =>
          match skip r with
          | .error e => .error e
          | .ok r =>
            match consume ']' r with
            | some r => .ok ([v], r)
            | none =>
              match elements toDouble n r with
              | .error e => .error e
              | .ok (vs, r) => .ok (v :: vs, r)
        | none =>
          match consume ']' r with
          | some r => .ok ([v], r)
          | none => .error (.missCommaOrSquare, r)

/-- The loop in `ParseObject` (`kParseTrailingCommasFlag`, src/config/json.cpp:41). -/
def members (toDouble : Str → Option Nat) : Nat → Str → Except Err (List (Str × Json) × Str)
  | 0, s => .error (.fuel, s)
  | n + 1, s =>
    match consume '"' s with
    | none => .error (.missName, s)
    | some r =>
      match string r with
      | .error e => .error e
      | .ok (name, r) =>
        match skip r with
        | .error e => .error e
        | .ok r =>
          match consume ':' r with
          | none => .error (.missColon, r)
          | some r =>
            match skip r with
            | .error e => .error e
            | .ok r =>
              match value toDouble n r with
              | .error e => .error e
              | .ok (v, r) =>
                match skip r with
                | .error e => .error e
                | .ok r =>
                  match consume ',' r with
                  | some r =>
                    match skip r with
                    | .error e => .error e
                    | .ok r =>
                      match consume '}' r with
                      | some r => .ok ([(name, v)], r)
                      | none =>
                        match members toDouble n r with
                        | .error e => .error e
                        | .ok (ms, r) => .ok ((name, v) :: ms, r)
                  | none =>
                    match consume '}' r with
                    | some r => .ok ([(name, v)], r)
                    | none => .error (.missCommaOrCurly, r)

end

/-- `ParseStream` (src/config/json.cpp:41). -/
def parse (toDouble : Str → Option Nat) (text : Str) : Except Err Json :=
  match skip text with
  | .error e => .error e
  | .ok s =>
    if peek s = '\x00' then .error (.empty, s)
    else
      match value toDouble (2 * text.length + 2) s with
      | .error e => .error e
      | .ok (v, s) =>
        match skip s with
        | .error e => .error e
        | .ok s => if peek s = '\x00' then .ok v else .error (.notSingular, s)

/-- `GetParseError_En` (src/config/json.cpp:46). -/
def Code.message : Code → Str
  | .empty => ch! "The document is empty."
  | .notSingular => ch! "The document root must not be followed by other values."
  | .valueInvalid => ch! "Invalid value."
  | .missName => ch! "Missing a name for object member."
  | .missColon => ch! "Missing a colon after a name of object member."
  | .missCommaOrCurly => ch! "Missing a comma or } after an object member."
  | .missCommaOrSquare => ch! "Missing a comma or ] after an array element."
  | .invalidHex => ch! "Incorrect hex digit after \\u escape in string."
  | .surrogate => ch! "The surrogate pair in string is invalid."
  | .escapeInvalid => ch! "Invalid escape character in string."
  | .missQuote => ch! "Missing a closing quotation mark in string."
  | .tooBig => ch! "Number too big to be stored in double."
  | .missFraction => ch! "Miss fraction part in number."
  | .missExponent => ch! "Miss exponent in number."
  | .syntax => ch! "Unspecific syntax error."
  | .fuel => []

/-- `factory<json_t>::initialize` (src/config/json.cpp:39-48): the document, or what `std::invalid_argument` says. -/
def initialize_ (toDouble : Str → Option Nat) (text : Str) : Except Str Json :=
  match parse toDouble text with
  | .ok v => .ok v
  | .error (code, rest) =>
    .error (ch! "parse error at offset " ++ Nat.toDigits 10 (text.length - rest.length) ++ ch! ": " ++ code.message)

/-- `registry_t::builder<json_t>(stream).build(name)` (include/blackhole/registry.hpp:79-82, src/config/json.cpp:15-33,
src/registry.cpp:63-74): the handlers of the new root logger, or what is thrown: on the text or on the document. -/
def build {S F M H : Type} (toDouble : Str → Option Nat) (r : Registry.Registry S F M H) (text name : Str) :
    Except (Str ⊕ Registry.Error) (List (Registry.Handler S M H)) :=
  match initialize_ toDouble text with
  | .error what => .error (.inl what)
  | .ok doc =>
    match r.build doc name with
    | .error e => .error (.inr e)
    | .ok hs => .ok hs

end Blackhole.JsonRead
