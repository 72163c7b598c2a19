import Verif.Date.Model

/-!
# The portable timestamp generator (src/datetime/generator.other.cpp, used on Apple systems)

Overflow of `int` in the arithmetic on fields is left out: a field that large is out of range for `fill`.
-/

namespace Blackhole.DateOther

open Time

/-- What is used of the C and C++ libraries: the facet `time_put` for one conversion, and `mktime`. They are called in
src/datetime/generator.other.cpp:76-77, 172 and 197-201. -/
structure Lib where
  put : Char → Tm → Except UB Str
  mktime : Tm → Int × Tm

/-- The loop and the `memset` of `fill` (src/datetime/generator.other.cpp:45-55): `room` positions are left in front of what
is written. A position in front of the buffer is out of bounds. -/
def fillLoop (filler : Char) : Nat → Int → Str → Except UB Str
  | 0, _, _ => .error .outOfBounds
  | room + 1, value, buffer =>
    let buffer := Char.ofNat (48 + value.tmod 10).toNat :: buffer
    let value := value.tdiv 10
    if value = 0 then .ok (List.replicate room filler ++ buffer) else fillLoop filler room value buffer

/-- `fill` (src/datetime/generator.other.cpp:57-62). -/
def fill (length : Nat) (filler : Char) (value : Int) : Except UB Str := fillLoop filler length value []

/-- `token_t`: a pointer to one of the functions of lines 71-243 of src/datetime/generator.other.cpp. -/
inductive Tok where
  | literal
  | localized (c : Char)
  | fullYear
  | lastTwoDigits
  | firstTwoDigits
  | month
  | weekSunday
  | weekMonday
  | yearDay
  | monthDay (filler : Char)
  | hour24
  | hour12
  | minute
  | second
  | epoch
  | usecond
  | standard
  | mdy
  | isoDate
  | isoTime
  deriving DecidableEq, Repr

/-- `generator_handler_t` (src/datetime/generator.other.cpp:245-257). -/
structure Handler where
  tokens : List Tok := []
  literals : List Str := []
  litbuffer : Str := []

/-- `literal` (src/datetime/generator.other.cpp:272-275). -/
def Handler.literal (h : Handler) (s : Str) : Handler :=
  { h with tokens := h.tokens ++ [.literal], literals := h.literals ++ [s] }

/-- `end_partial_literal` (src/datetime/generator.other.cpp:265-270). -/
def Handler.endPartial (h : Handler) : Handler :=
  if h.litbuffer = [] then h else { h.literal h.litbuffer with litbuffer := [] }

/-- `partial_literal` (src/datetime/generator.other.cpp:261-263). -/
def Handler.partialLiteral (h : Handler) (s : Str) : Handler := { h with litbuffer := h.litbuffer ++ s }

/-- The members of lines 281-407 of src/datetime/generator.other.cpp: each ends the literal and adds a token. -/
def Handler.push (h : Handler) (t : Tok) : Handler :=
  let h := h.endPartial
  { h with tokens := h.tokens ++ [t] }

/-- `through_t::parse` (src/datetime/generator.other.cpp:412-423) and `placeholder` (277-279). -/
def through (c : Char) (h : Handler) : Handler := h.literal ['%', c]

/-- `common::parse` (src/datetime/generator.other.cpp:425-440). -/
def common (c : Char) (h : Handler) : Handler :=
  match c with
  | 'c' => h
  | _ => through c h

/-- `time::parse` (src/datetime/generator.other.cpp:442-477). -/
def time (c : Char) (h : Handler) : Handler :=
  match c with
  | 'H' => h.push .hour24
  | 'I' => h.push .hour12
  | 'M' => h.push .minute
  | 'S' => h.push .second
  | 's' => h.push .epoch
  | 'f' => h.push .usecond
  | 'p' => h.push (.localized 'p')
  | _ => common c h

/-- `date::parse` (src/datetime/generator.other.cpp:479-559). -/
def date (c : Char) (h : Handler) : Handler :=
  match c with
  | 'Y' => h.push .fullYear
  | 'y' => h.push .lastTwoDigits
  | 'C' => h.push .firstTwoDigits
  | 'm' => h.push .month
  | 'b' => h.push (.localized 'b')
  | 'h' => h.push (.localized 'b')
  | 'B' => h.push (.localized 'B')
  | 'U' => h.push .weekSunday
  | 'W' => h.push .weekMonday
  | 'j' => h.push .yearDay
  | 'd' => h.push (.monthDay '0')
  | 'e' => h.push (.monthDay ' ')
  | 'a' => h.push (.localized 'a')
  | 'A' => h.push (.localized 'A')
  | 'c' => h.push .standard
  | 'D' => h.push .mdy
  | 'F' => h.push .isoDate
  | 'T' => h.push .isoTime
  | 'z' => h.push (.localized 'z')
  | 'Z' => h.push (.localized 'Z')
  | '%' => h.literal ['%']
  | _ => time c h

/-- `parser_t::parse` (src/datetime/generator.other.cpp:563-588). Text is added to the buffer one character at a time
instead of up to the next percent sign at once. -/
def parse (h : Handler) : Str → Handler
  | [] => h.endPartial
  | '%' :: c :: s => parse (date c h) s
  | c :: s => parse (h.partialLiteral [c]) s

/-- One text after the other, while all are defined: the statements of src/datetime/generator.other.cpp:190-243 in
order. -/
def seq : List (Except UB Str) → Except UB Str
  | [] => .ok []
  | x :: xs =>
    match x with
    | .error u => .error u
    | .ok s =>
      match seq xs with
      | .error u => .error u
      | .ok t => .ok (s ++ t)

/-- `year::full` (src/datetime/generator.other.cpp:82-84). -/
def fullYear (tm : Tm) : Except UB Str := fill 4 '0' (tm.year + 1900)

/-- `year::last_two_digits` (src/datetime/generator.other.cpp:86-88). -/
def lastTwoDigits (tm : Tm) : Except UB Str := fill 2 '0' (tm.year.tmod 100)

/-- `year::first_two_digits` (src/datetime/generator.other.cpp:90-92). -/
def firstTwoDigits (tm : Tm) : Except UB Str := fill 2 '0' (tm.year.tdiv 100 + 19)

/-- `month::numeric` (src/datetime/generator.other.cpp:98-100). -/
def monthNumeric (tm : Tm) : Except UB Str := fill 2 '0' (tm.mon + 1)

/-- `day::month::numeric` (src/datetime/generator.other.cpp:133-136). -/
def dayNumeric (filler : Char) (tm : Tm) : Except UB Str := fill 2 filler tm.mday

/-- `hour::h24`, `minute::normal`, `second::normal` (src/datetime/generator.other.cpp:146-148, 159-161, 167-169). -/
def hour24 (tm : Tm) : Except UB Str := fill 2 '0' tm.hour
/-- `minute::normal` (src/datetime/generator.other.cpp:157-163). -/
def minute (tm : Tm) : Except UB Str := fill 2 '0' tm.min
/-- `second::normal` (src/datetime/generator.other.cpp:165-169). -/
def second (tm : Tm) : Except UB Str := fill 2 '0' tm.sec

/-- `hour::h12` (src/datetime/generator.other.cpp:150-153). -/
def hour12 (tm : Tm) : Except UB Str :=
  let mod := tm.hour.tmod 12
  fill 2 '0' (if mod = 0 then 12 else mod)

/-- A call of a token other than `literal` and `epoch`: the functions of lines 71-236 of src/datetime/generator.other.cpp. -/
def show_ (lib : Lib) (usec : Nat) (tm : Tm) : Tok → Except UB Str
  | .literal => .ok []
  | .epoch => .ok []
  | .localized c => lib.put c tm
  | .fullYear => fullYear tm
  | .lastTwoDigits => lastTwoDigits tm
  | .firstTwoDigits => firstTwoDigits tm
  | .month => monthNumeric tm
  | .weekSunday => fill 2 '0' ((tm.yday - tm.wday + 7).tdiv 7)
  | .weekMonday => fill 2 '0' ((tm.yday - tm.wday + (if tm.wday = 0 then 1 else 8)).tdiv 7)
  | .yearDay => fill 3 '0' (tm.yday + 1)
  | .monthDay filler => dayNumeric filler tm
  | .hour24 => hour24 tm
  | .hour12 => hour12 tm
  | .minute => minute tm
  | .second => second tm
  | .usecond => fill 6 '0' (i32 usec)
  | .standard =>
    seq [lib.put 'a' tm, .ok [' '], lib.put 'b' tm, .ok [' '], dayNumeric '0' tm, .ok [' '], hour24 tm, .ok [':'],
      minute tm, .ok [':'], second tm, .ok [' '], fullYear tm]
  | .mdy => seq [monthNumeric tm, .ok ['/'], dayNumeric '0' tm, .ok ['/'], lastTwoDigits tm]
  | .isoDate => seq [fullYear tm, .ok ['-'], monthNumeric tm, .ok ['-'], dayNumeric '0' tm]
  | .isoTime => seq [hour24 tm, .ok [':'], minute tm, .ok [':'], second tm]

/-- Text written before the rest: the loop over the tokens (src/datetime/generator.other.cpp:596-605). -/
def prepend (s : Str) : Except UB (Str × Tm × List Str) → Except UB (Str × Tm × List Str)
  | .error u => .error u
  | .ok (rest, tm, lits) => .ok (s ++ rest, tm, lits)

/-- `generator_t::operator()` (src/datetime/generator.other.cpp:597-603) over the context (25-41): the structure, which
`mktime` may change (171-173), and the literals not yet used (240-243). -/
def exec (lib : Lib) (usec : Nat) : Tm → List Str → List Tok → Except UB (Str × Tm × List Str)
  | tm, lits, [] => .ok ([], tm, lits)
  | _, [], .literal :: _ => .error .outOfBounds
  | tm, s :: lits, .literal :: ts => prepend s (exec lib usec tm lits ts)
  | tm, lits, .epoch :: ts =>
    let t := (lib.mktime tm).1
    prepend ((if t < 0 then ['-'] else []) ++ Nat.toDigits 10 t.natAbs) (exec lib usec (lib.mktime tm).2 lits ts)
  | tm, lits, t :: ts =>
    match show_ lib usec tm t with
    | .error u => .error u
    | .ok s => prepend s (exec lib usec tm lits ts)

/-- `make_generator` (src/datetime/generator.other.cpp:605-614), and a call of the generator. -/
def generate (lib : Lib) (pattern : Str) (tm : Tm) (usec : Nat) : Except UB Str :=
  let h := parse {} pattern
  match exec lib usec tm h.literals h.tokens with
  | .error u => .error u
  | .ok (s, _, _) => .ok s

end Blackhole.DateOther
