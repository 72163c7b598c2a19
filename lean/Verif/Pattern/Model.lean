import Verif.Fmt.Model

/-!
# The parser of string patterns (src/formatter/string/)

A pattern such as `{timestamp} [{severity:>7s}]: {message}` is cut into tokens by a hand-written state machine
(parser.cpp); the specifications of optional attributes and of the leftover placeholder are parsed by Boost.Spirit
grammars (grammar.cpp), which are modelled as the parsing-expression grammars they are.
-/

namespace Blackhole.Pattern

/-- `parser_error_t` and its descendants (src/formatter/string/error.cpp:8-39). -/
inductive Reason where
  | broken | illformed | invalidPlaceholder | malformed
  deriving DecidableEq, Repr

/-- What the parser throws: a `parser_error_t` with its position and the text it points into, `runtime_error("NIY")`
(src/formatter/string/grammar.cpp:176); or undefined behaviour. `fuel` is not an outcome of the program: it would mean
that the model's bound on the number of tokens is too small (`C21_position` in Props.lean shows it is not). -/
inductive Err where
  | parse (position : Nat) (text : Str) (reason : Reason)
  | niy
  | ub (u : UB)
  | fuel
  deriving DecidableEq, Repr

/-! ## Tokens -/

/-- `generic<optional>::otherwise` (src/formatter/string/token.hpp:51-55). A double is an opaque bit pattern. -/
inductive Otherwise where
  | int (z : Int)
  | double (bits : Nat)
  | string (s : Str)
  deriving DecidableEq, Repr

/-- `leftover_t::token_t` (src/formatter/string/token.hpp:123-137); `attribute<T>` is represented by its `spec`, since
`format` is always `"{:" + spec + "}"` (token.cpp:74-84). -/
inductive Item where
  | literal (s : Str)
  | name (spec : Str)
  | value (spec : Str)
  deriving DecidableEq, Repr

/-- `leftover_t` (src/formatter/string/token.hpp:132-147). Prefix and suffix are never set by the parser: they are
left out. -/
structure Leftover where
  spec : Str
  separator : Str
  items : List Item
  deriving DecidableEq, Repr

/-- `token_t` (src/formatter/string/token.hpp:162-177). The generator of `timestamp<user>` is determined by the
pattern. Prefix and suffix of optional attributes are always empty in what the parser makes: they are left out. -/
inductive Token where
  | literal (s : Str)
  | required (name spec : Str)
  | optional (name spec : Str) (otherwise : Otherwise)
  | leftover (l : Leftover)
  | processId (spec : Str)
  | processName (spec : Str)
  | threadId (spec : Str)
  | threadHex (spec : Str)
  | threadName (spec : Str)
  | message (spec : Str)
  | severityNum (spec : Str)
  | severityUser (spec : Str)
  | timestampNum (spec : Str)
  | timestampUser (pattern spec : Str) (gmtime : Bool)
  deriving DecidableEq, Repr

/-- `leftover_t::leftover_t()` (src/formatter/string/token.cpp:86-90). -/
def Leftover.default : Leftover where
  spec := ch! "{:}"
  separator := ch! ", "
  items := [.name [], .literal (ch! ": "), .value []]

/-- The pattern of a timestamp without one (src/formatter/string/token.cpp:46, 53). -/
def defaultTime : Str := ch! "%Y-%m-%d %H:%M:%S.%f"

/-- `timestamp<user>::timestamp(pattern, spec, gmtime)` (src/formatter/string/token.cpp:52-57). -/
def mkTimestamp (pattern spec : Str) (gmtime : Bool) : Token :=
  .timestampUser (if pattern = [] then defaultTime else pattern) spec gmtime

/-! ## Grammars

Each parser takes the input and returns what it matched and the rest, or fails. -/

/-- `(*(char_ - (mark >> !'}')) >> mark) % '}'` (src/formatter/string/grammar.cpp:81, 128, 129). The repetition stops at
the first mark that no `}` follows, so the list never has a second item. -/
def untilMark (mark : Str) : Str → Option (Str × Str)
  | [] => none
  | c :: s =>
    if mark <+: (c :: s) ∧ Fmt.peek ((c :: s).drop mark.length) ≠ '}' then some ([], (c :: s).drop mark.length)
    else
      match untilMark mark s with
      | none => none
      | some (t, r) => some (c :: t, r)

/-- `lit('{') >> ...` of the rules `otherwise`, `pattern` and `separator` (src/formatter/string/grammar.cpp:81, 128,
129). -/
def braced (mark : Str) : Str → Option (Str × Str)
  | '{' :: s => untilMark mark s
  | _ => none

/-- `-p` for a parser of one character (Boost.Spirit, used in src/formatter/string/grammar.cpp:75-165). -/
def optChar (p : Char → Bool) : Str → Str × Str
  | [] => ([], [])
  | c :: s => if p c then ([c], s) else ([], c :: s)

/-- `char_("<^>")` in the grammars (src/formatter/string/grammar.cpp:84, 131, 150). -/
def isAlign (c : Char) : Bool := c == '<' || c == '^' || c == '>'

/-- `-(+digit)` (Boost.Spirit, used in src/formatter/string/grammar.cpp:75-165). -/
def optDigits (s : Str) : Str × Str := (s.takeWhile Fmt.isDigit, s.dropWhile Fmt.isDigit)

/-- `-fill` (src/formatter/string/grammar.cpp:83): a character followed by an alignment. -/
def optFill : Str → Str × Str
  | c :: a :: s => if isAlign a then ([c], a :: s) else ([], c :: a :: s)
  | s => ([], s)

/-- `-precision` (src/formatter/string/grammar.cpp:88). -/
def optPrecision : Str → Str × Str
  | '.' :: s =>
    match optDigits s with
    | ([], _) => ([], '.' :: s)
    | (ds, r) => ('.' :: ds, r)
  | s => ([], s)

/-- The rule `spec` of optional attributes (src/formatter/string/grammar.cpp:82-89): what it matched and the rest. -/
def optionalSpec (s : Str) : Str × Str :=
  let (fill, s) := optFill s
  let (align, s) := optChar isAlign s
  let (alt, s) := optChar (· == '#') s
  let (zero, s) := optChar (· == '0') s
  let (width, s) := optDigits s
  let (precision, s) := optPrecision s
  let (type, s) := optChar (fun c => c == 's' || c == 'd' || c == 'f' || c == 'x') s
  (fill ++ align ++ alt ++ zero ++ width ++ precision ++ type, s)

/-- `-align >> -width >> type` (src/formatter/string/grammar.cpp:130-133, 149-152). -/
def typedSpec (type : Char → Bool) (s : Str) : Option (Str × Str) :=
  let (align, s) := optChar isAlign s
  let (width, s) := optDigits s
  match s with
  | [] => none
  | c :: s => if type c then some (align ++ width ++ [c], s) else none

/-- `optional_grammar_t` (src/formatter/string/grammar.cpp:77-80) on what follows `{:`. Any failure is an exception
that the caller catches (parser.cpp:277-281). The alternative `'}'` cannot match, since the input begins with `{:`. -/
def optionalGrammar (s : Str) : Option (Str × Str) :=
  match braced (ch! ":default}") s with
  | none => none
  | some (otherwise, s) =>
    let (spec, s) := optionalSpec s
    if s = ['}'] then some (otherwise, spec) else none

/-- The number that decimal digits denote (`boost::lexical_cast`, src/formatter/string/grammar.cpp:196). -/
def decimal (ds : Str) : Nat := ds.foldl (fun (n : Nat) (c : Char) => n * 10 + (c.toNat - 48)) 0

/-- `boost::lexical_cast<std::int64_t>` (src/formatter/string/grammar.cpp:196): an optional sign and decimal digits in
range. -/
def castInt (s : Str) : Option Int :=
  let ds := if Fmt.peek s = '-' ∨ Fmt.peek s = '+' then s.tail else s
  let z : Int := if Fmt.peek s = '-' then -(decimal ds : Int) else (decimal ds : Int)
  if ds ≠ [] ∧ ds.all Fmt.isDigit ∧ -(2 ^ 63) ≤ z ∧ z < 2 ^ 63 then some z else none

/-- `parse_optional` (src/formatter/string/grammar.cpp:189-207). `castDouble` is `boost::lexical_cast<double>`. -/
def parseOptional (castDouble : Str → Option Nat) (name s : Str) : Option Token :=
  match optionalGrammar s with
  | none => none
  | some (otherwise, spec) =>
    some (.optional name (ch! "{:" ++ spec ++ ch! "}") (match castInt otherwise with
      | some z => .int z
      | none =>
        match castDouble otherwise with
        | some b => .double b
        | none => .string otherwise))

/-- `pattern ^ separator` (src/formatter/string/grammar.cpp:126): in every round each parser that has not matched yet
is tried, `pattern` first, until a round brings nothing new. Two rounds are enough for two parsers. -/
def permutation (s : Str) : Option Str × Option Str × Str :=
  let (p, s) := once (ch! ":p}") none s
  let (q, s) := once (ch! ":s}") none s
  let (p, s) := once (ch! ":p}") p s
  let (q, s) := once (ch! ":s}") q s
  (p, q, s)
where
  once (mark : Str) (got : Option Str) (s : Str) : Option Str × Str :=
    match got with
    | some t => (some t, s)
    | none =>
      match braced mark s with
      | some (t, r) => (some t, r)
      | none => (none, s)

/-- `+((char_ - braces) | lbrace | rbrace)` of the rule `lit` (src/formatter/string/grammar.cpp:142-148). -/
def itemLiteral : Str → Str × Str
  | [] => ([], [])
  | [c] => if c = '{' ∨ c = '}' then ([], [c]) else ([c], [])
  | c :: d :: s =>
    if c = '{' ∨ c = '}' then
      if d = c then
        let (t, r) := itemLiteral s
        (c :: t, r)
      else ([], c :: d :: s)
    else
      let (t, r) := itemLiteral (d :: s)
      (c :: t, r)

/-- The rules `name` and `value` (src/formatter/string/grammar.cpp:140, 141). -/
def itemAttribute (key : Str) (s : Str) : Option (Str × Str) :=
  if key <+: s then
    let s := s.drop key.length
    let (spec, s) : Str × Str :=
      match s with
      | ':' :: r =>
        match typedSpec (fun c => c == 's' || c == 'd') r with
        | some (spec, r) => (spec, r)
        | none => ([], s)
      | _ => ([], s)
    match s with
    | '}' :: r => some (spec, r)
    | _ => none
  else none

/-- `*(name | value | lit) >> eoi` (src/formatter/string/grammar.cpp:139). Every round consumes a character; `fuel`
bounds their number. -/
def items : (fuel : Nat) → Str → Option (List Item)
  | _, [] => some []
  | 0, _ => none
  | fuel + 1, s =>
    match itemAttribute (ch! "{name") s with
    | some (spec, r) => (items fuel r).map (.name spec :: ·)
    | none =>
      match itemAttribute (ch! "{value") s with
      | some (spec, r) => (items fuel r).map (.value spec :: ·)
      | none =>
        match itemLiteral s with
        | ([], _) => none
        | (t, r) => (items fuel r).map (.literal t :: ·)

/-- `parse_leftover` (src/formatter/string/grammar.cpp:209-224) with `grammar_t` (119-134) on what follows `{:`. A
failed expectation is reported at the end of the specification (166). -/
def parseLeftover (s : Str) : Except Err Leftover :=
  let fail : Except Err Leftover := .error (.parse (s.length + 2) (ch! "{:" ++ s) .malformed)
  let (pattern, separator, r) := permutation s
  match typedSpec (· == 's') r with
  | none => fail
  | some (spec, r) =>
    if r ≠ ['}'] then fail
    else
      let parsed : Except Err (List Item) :=
        match pattern with
        | none => .ok Leftover.default.items
        | some t =>
          match items (t.length + 1) t with
          | none => .error .niy
          | some is => .ok is
      match parsed with
      | .error e => .error e
      | .ok is =>
        .ok {
          spec := ch! "{:" ++ spec ++ ch! "}"
          separator := match separator with
            | none => Leftover.default.separator
            | some t => t
          items := is }

/-! ## Specifications of the built-in placeholders -/

/-- `spec.at(spec.size() - 2)` after `BOOST_ASSERT(spec.size() > 2)` (src/formatter/string/parser.cpp:43-45 and
alike); `body` is the specification without the leading `{:`. -/
def typeOf (body : Str) : Except Err Char :=
  if body = [] then .error (.ub .assertion)
  else
    match (ch! "{:" ++ body)[(ch! "{:" ++ body).length - 2]? with
    | some c => .ok c
    | none => .error (.ub .outOfBounds)

/-- `extract` (src/formatter/string/parser.cpp:112-139). -/
def extract (body : Str) (gmtime : Bool) : Token :=
  match body with
  | '{' :: s => mkTimestamp (s.takeWhile (· ≠ '}')) (ch! "{:" ++ (s.dropWhile (· ≠ '}')).drop 1) gmtime
  | s => mkTimestamp [] (ch! "{:" ++ s) gmtime

/-- `spec_factory<...>::match` (src/formatter/string/parser.cpp:31-148) and the table of factories (155-160). None:
there is no such factory. -/
def matchSpec (name body : Str) : Option (Except Err Token) :=
  let spec := ch! "{:" ++ body
  if name = ch! "message" then some (.ok (.message spec))
  else if name = ch! "process" then
    some ((typeOf body).map fun t => if t = 's' then .processName spec else .processId spec)
  else if name = ch! "thread" then
    some ((typeOf body).map fun t =>
      if t = 'd' then .threadId spec else if t = 's' then .threadName spec else .threadHex spec)
  else if name = ch! "severity" then
    some ((typeOf body).map fun t => if t = 'd' then .severityNum spec else .severityUser spec)
  else if name = ch! "timestamp" then
    some ((typeOf body).map fun t =>
      if t = 'd' then .timestampNum spec
      else if t = 'l' then extract ((spec.set (spec.length - 2) 's').drop 2) false
      else extract body true)
  else if name = ch! "..." then some ((parseLeftover body).map .leftover)
  else none

/-- `factory::initialize` (src/formatter/string/parser.cpp:20-26) with the default constructors of token.cpp. -/
def initToken (name : Str) : Option Token :=
  if name = ch! "message" then some (.message (ch! "{}"))
  else if name = ch! "process" then some (.processId (ch! "{}"))
  else if name = ch! "thread" then some (.threadHex (ch! "{:#x}"))
  else if name = ch! "severity" then some (.severityUser (ch! "{}"))
  else if name = ch! "timestamp" then some (.timestampUser defaultTime (ch! "{}") true)
  else if name = ch! "..." then some (.leftover Leftover.default)
  else none

/-! ## The state machine -/

/-- `state_t` (src/formatter/string/parser.hpp:27-36). -/
inductive St where
  | unknown | literal | placeholder | broken
  deriving DecidableEq, Repr

/-- `parser_t` (src/formatter/string/parser.hpp:38-43); the cursor is what it has not passed yet. -/
structure Parser where
  pattern : Str
  st : St
  rest : Str
  deriving DecidableEq, Repr

/-- `parser_t::parser_t` (src/formatter/string/parser.cpp:150-161). -/
def Parser.init (pattern : Str) : Parser := ⟨pattern, .unknown, pattern⟩

/-- `throw_` (src/formatter/string/parser.cpp:318-325) with the cursor at `rest`. -/
def Parser.throw (p : Parser) (rest : Str) (reason : Reason) : Except Err (Option Token) × Parser :=
  (.error (.parse (p.pattern.length - rest.length) p.pattern reason), { p with st := .broken, rest := rest })

/-- `parse_spec` (src/formatter/string/parser.cpp:185-212): what it appends to `"{:"`, and the rest. `opened` is the
number of open braces. -/
def parseSpec (opened : Nat) : Str → Str × Str
  | [] => ([], [])
  | c :: s =>
    if c = '{' then
      let (t, r) := parseSpec (opened + 1) s
      (c :: t, r)
    else if c = '}' then
      if opened - 1 = 0 then ([c], s)
      else
        let (t, r) := parseSpec (opened - 1) s
        (c :: t, r)
    else
      let (t, r) := parseSpec opened s
      (c :: t, r)

/-- How the loop of `parse_literal` ends (src/formatter/string/parser.cpp:235-255). -/
inductive LitEnd where
  /-- At the end of the pattern. -/
  | done
  /-- Behind a `{` that begins a placeholder. -/
  | opened (rest : Str)
  /-- At a lone `}`. -/
  | lone (rest : Str)
  deriving DecidableEq, Repr

/-- The loop of `parse_literal` (src/formatter/string/parser.cpp:231-256). -/
def literalLoop : Str → Str × LitEnd
  | [] => ([], .done)
  | [c] =>
    if c = '{' then ([], .opened [])
    else if c = '}' then ([], .lone [c])
    else ([c], .done)
  | c :: d :: s =>
    if (c = '{' ∨ c = '}') ∧ d = c then
      let (t, e) := literalLoop s
      (c :: t, e)
    else if c = '{' then ([], .opened (d :: s))
    else if c = '}' then ([], .lone (c :: d :: s))
    else
      let (t, e) := literalLoop (d :: s)
      (c :: t, e)

/-- `parse_literal` (src/formatter/string/parser.cpp:231-256). -/
def Parser.parseLiteral (p : Parser) : Except Err (Option Token) × Parser :=
  match literalLoop p.rest with
  | (t, .done) => (.ok (some (.literal t)), { p with rest := [] })
  | (t, .opened r) => (.ok (some (.literal t)), { p with st := .placeholder, rest := r })
  | (_, .lone r) => p.throw r .illformed

/-- Characters of placeholder names (src/formatter/string/parser.cpp:265). `isalpha` and `isdigit` are those of the C
locale; what they do for bytes above 127 is left out (they are not name characters). -/
def isNameChar (c : Char) : Bool := Fmt.isNameStart c || Fmt.isDigit c || c == '.'

/-- `parse_placeholder` (src/formatter/string/parser.cpp:258-304). -/
def Parser.parsePlaceholder (castDouble : Str → Option Nat) (p : Parser) : Except Err (Option Token) × Parser :=
  let name := p.rest.takeWhile isNameChar
  let rest := p.rest.dropWhile isNameChar
  match rest with
  | [] => p.throw [] .illformed
  | c :: r =>
    if c = ':' then
      let (body, r) := parseSpec 1 r
      let p' : Parser := { p with st := .unknown, rest := r }
      match matchSpec name body with
      | some (.ok t) => (.ok (some t), p')
      | some (.error e) => (.error e, p')
      | none =>
        match parseOptional castDouble name body with
        | some t => (.ok (some t), p')
        | none => (.ok (some (.required name (ch! "{:" ++ body))), p')
    else if c = '}' then
      let p' : Parser := { p with st := .unknown, rest := r }
      match initToken name with
      | some t => (.ok (some t), p')
      | none => (.ok (some (.required name (ch! "{}"))), p')
    else p.throw (c :: r) .invalidPlaceholder

/-- `next` in the states `literal` and `placeholder` (src/formatter/string/parser.cpp:169-179). -/
def Parser.nextIn (castDouble : Str → Option Nat) (p : Parser) : Except Err (Option Token) × Parser :=
  if p.rest = [] then (.ok none, p)
  else
    match p.st with
    | .literal => p.parseLiteral
    | .placeholder => p.parsePlaceholder castDouble
    | _ => p.throw p.rest .broken

/-- `next` (src/formatter/string/parser.cpp:163-183) with `parse_unknown` (214-229), whose call of `next` is in one of
the other two states. -/
def Parser.next (castDouble : Str → Option Nat) (p : Parser) : Except Err (Option Token) × Parser :=
  if p.st = .broken then p.throw p.rest .broken
  else if p.rest = [] then (.ok none, p)
  else if p.st = .unknown then
    match p.rest with
    | '{' :: s =>
      if Fmt.peek s = '{' then Parser.nextIn castDouble { p with st := .literal }
      else Parser.nextIn castDouble { p with st := .placeholder, rest := s }
    | _ => Parser.nextIn castDouble { p with st := .literal }
  else p.nextIn castDouble

/-- The loop of `tokenize` (src/formatter/string.cpp:299-308). -/
def tokenizeLoop (castDouble : Str → Option Nat) : (fuel : Nat) → Parser → Except Err (List Token)
  | 0, _ => .error .fuel
  | fuel + 1, p =>
    match p.next castDouble with
    | (.error e, _) => .error e
    | (.ok none, _) => .ok []
    | (.ok (some t), p') => (tokenizeLoop castDouble fuel p').map (t :: ·)

/-- `tokenize` (src/formatter/string.cpp:299-308). Every token consumes a character. -/
def tokenize (castDouble : Str → Option Nat) (pattern : Str) : Except Err (List Token) :=
  tokenizeLoop castDouble (pattern.length + 1) (Parser.init pattern)

end Blackhole.Pattern
