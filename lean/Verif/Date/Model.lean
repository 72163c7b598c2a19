import Verif.Time.Model
import Verif.StringFmt.Model

/-!
# The timestamp generator on Linux (src/datetime/generator.linux.cpp) and its callers
-/

namespace Blackhole.Date

open Rec Time

/-- What is used of the C library beside `Time.Libc`. `strftime` is the whole text, or undefined behaviour if it needs
a field that was never written; `mktime` returns the time and the structure that it leaves. They are called in
src/datetime/generator.linux.cpp:29 and 34. -/
structure Libc extends Time.Libc where
  strftime : Str → Tm → Except UB Str
  mktime : Tm → Int × Tm

/-- `generator_t::token_t` (src/datetime/generator.linux.hpp:18-26). -/
inductive Tok where
  | literal (s : Str)
  | epoch
  | usecond
  deriving DecidableEq, Repr

/-- The loop of `generator_t::generator_t` (src/datetime/generator.linux.cpp:44-70) and what follows it; `literal` is the
text collected. -/
def scan (literal : Str) : Str → List Tok
  | [] => if literal = [] then [] else [.literal literal]
  | '%' :: 'f' :: s => .literal literal :: .usecond :: scan [] s
  | '%' :: 's' :: s => .literal literal :: .epoch :: scan [] s
  | c :: s => scan (literal ++ [c]) s

/-- `make_generator` (src/datetime/generator.linux.cpp:80-82). -/
def tokenize (pattern : Str) : List Tok := scan [] pattern

/-- `stream.write` with one argument (src/datetime/generator.linux.cpp:34, 38). -/
def put (fd : Fmt.Spec → Nat → Except Fmt.Err Str) (spec : Str) (a : Fmt.Arg) : Except Exc Str :=
  match Fmt.format fd spec [a] with
  | .ok s => .ok s
  | .error e => .error (.fmt e)

/-- `visitor_t` (src/datetime/generator.linux.cpp:16-40). The buffer has 1024 characters, with the NUL; `strftime` returns
0 if the text does not fit. -/
def visit (fd : Fmt.Spec → Nat → Except Fmt.Err Str) (libc : Libc) (usec : Nat) (tm : Tm) : Tok → Except Exc (Str × Tm)
  | .literal s =>
    match libc.strftime (Config.cstr s) tm with
    | .error u => .error (.ub u)
    | .ok text => .ok (if text.length < 1024 then text else [], tm)
  | .epoch =>
    let (t, tm') := libc.mktime tm
    match put fd (ch! "{}") (.long t) with
    | .error e => .error e
    | .ok s => .ok (s, tm')
  | .usecond =>
    match put fd (ch! "{:06d}") (.ulong usec) with
    | .error e => .error e
    | .ok s => .ok (s, tm)

/-- The loop of `operator()` (src/datetime/generator.linux.cpp:72-78). -/
def run (fd : Fmt.Spec → Nat → Except Fmt.Err Str) (libc : Libc) (usec : Nat) : Tm → List Tok → Except Exc Str
  | _, [] => .ok []
  | tm, t :: ts =>
    match visit fd libc usec tm t with
    | .error e => .error e
    | .ok (s, tm) =>
      match run fd libc usec tm ts with
      | .error e => .error e
      | .ok rest => .ok (s ++ rest)

/-- A generator for the pattern (src/datetime/generator.linux.cpp:44-70, 80-82), called (72-78). -/
def generate (fd : Fmt.Spec → Nat → Except Fmt.Err Str) (libc : Libc) (pattern : Str) (tm : Tm) (usec : Nat) :
    Except Exc Str :=
  run fd libc usec tm (tokenize pattern)

/-- The time of the string formatter (src/formatter/string.cpp:243-252): its own conversions. -/
def stringClock (fd : Fmt.Spec → Nat → Except Fmt.Err Str) (libc : Libc) : StringFmt.Clock :=
  fun pattern gm sec usec =>
    generate fd libc pattern (if gm then Time.gmtime sec else Time.localtime libc.toLibc sec) usec

/-- The time of the TSKV formatter (src/formatter/tskv.cpp:167-175), of the JSON formatter (src/formatter/json.cpp:478-481)
and of the `dev` handler (src/handler/dev.cpp:105-109): the conversions of the C library. -/
def libcClock (fd : Fmt.Spec → Nat → Except Fmt.Err Str) (libc : Libc) : StringFmt.Clock :=
  fun pattern gm sec usec =>
    generate fd libc pattern (if gm then libc.gmtime_r sec else libc.localtime_r sec) usec

end Blackhole.Date
