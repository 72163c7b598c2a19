import Verif.Fmt.Model

/-!
# Compile-time format strings

Models include/blackhole/extensions/metaformat.hpp. The functions there are `constexpr` and run in the compiler on a
string literal; an exception they throw there is a compile error. Templates that fail to instantiate are compile errors
too, and are modelled as such.
-/

namespace Blackhole.MetaFormat

open Fmt (Arg)

/-- Why a pattern, or a call with some arguments, does not compile (include/blackhole/extensions/metaformat.hpp:20-22,
51-83, 123-143, 210-229). -/
inductive Reject where
  /-- A `throw` was reached in a constant expression; the text is that of the exception. -/
  | thrown (what : Str)
  /-- No member function takes these arguments, or a type is incomplete. -/
  | noInstance
  deriving DecidableEq, Repr

/-- `parse_argument` (include/blackhole/extensions/metaformat.hpp:14-23) at character `c`. What it returns, the size of the
field, is always 2 and left out: the caller goes on behind `c`. -/
def parseArgument (c : Char) : Except Reject Unit :=
  if c = '}' then .ok ()
  else .error (.thrown (ch! "only {} is supported for compile-time analysys for now, sorry"))

/-- `literal_count` (include/blackhole/extensions/metaformat.hpp:32-91): the loop with `result` so far on the characters
from `id` on. The two flags that it sets and never reads are omitted. -/
def countFrom (result : Nat) : Str → Except Reject Nat
  | [] => .ok result
  | [curr] =>
    if curr = '{' then .error (.thrown (ch! "unmatched '{' in format"))
    else if curr = '}' then .error (.thrown (ch! "single '}' encountered in format string"))
    else countFrom result []
  | curr :: c :: s =>
    if curr = '{' then
      if c = '{' then countFrom (result + 1) s
      else
        match parseArgument c with
        | .error e => .error e
        | .ok _ => countFrom (result + 1) s
    else if curr = '}' then
      if c = '}' then countFrom (result + 1) s
      else .error (.thrown (ch! "single '}' encountered in format string"))
    else countFrom result (c :: s)

/-- `literal_count` (include/blackhole/extensions/metaformat.hpp:32-40). -/
def literalCount (format : Str) : Except Reject Nat := countFrom 1 format

/-- `literal_t` (include/blackhole/extensions/metaformat.hpp:97-105). -/
structure Literal where
  data : Str
  placeholderNext : Bool
  deriving DecidableEq, Repr

/-- `next_literal` (include/blackhole/extensions/metaformat.hpp:114-156): the loop, having passed the characters `pre`. A
view is modelled by its characters. -/
def nextFrom (pre : Str) : Str → Except Reject Literal
  | [] => .ok { data := pre, placeholderNext := false }
  | [c] =>
    if c = '{' then .error (.thrown (ch! "unmatched '{' in format"))
    else if c = '}' then .error (.thrown (ch! "single '}' encountered in format string"))
    else nextFrom (pre ++ [c]) []
  | c :: d :: s =>
    if c = '{' then
      if d = '{' then .ok { data := pre ++ [c], placeholderNext := false }
      else .ok { data := pre, placeholderNext := true }
    else if c = '}' then
      if d = '}' then .ok { data := pre ++ [c], placeholderNext := false }
      else nextFrom (pre ++ [c, d]) s
    else nextFrom (pre ++ [c]) (d :: s)

/-- `next_literal` (include/blackhole/extensions/metaformat.hpp:114-156). -/
def nextLiteral (string : Str) : Except Reject Literal := nextFrom [] string

/-- `string_view::substr(pos)` (include/blackhole/stdext/string_view.hpp:122-127) in a constant expression. -/
def substr (s : Str) (pos : Nat) : Except Reject Str :=
  if pos ≤ s.length then .ok (s.drop pos) else .error (.thrown (ch! "out of range"))

/-- `formatter<N>` (include/blackhole/extensions/metaformat.hpp:172-237): `formatter<1>` is `last`. -/
inductive Formatter where
  | last (literal : Literal)
  | more (literal : Literal) (next : Formatter)
  deriving DecidableEq, Repr

/-- The constructors of `formatter<N>` (include/blackhole/extensions/metaformat.hpp:178-183, 217-220); `formatter<0>` is
never defined (209-210). -/
def build : Nat → Str → Except Reject Formatter
  | 0, _ => .error .noInstance
  | 1, format => .ok (.last { data := format, placeholderNext := false })
  | n + 2, format =>
    match nextLiteral format with
    | .error e => .error e
    | .ok literal =>
      match substr format (if literal.placeholderNext then literal.data.length + 2 else literal.data.length + 1) with
      | .error e => .error e
      | .ok rest =>
        match build (n + 1) rest with
        | .error e => .error e
        | .ok next => .ok (.more literal next)

/-- `formatter<literal_count(pattern)>(pattern)`, which is how the type is meant to be used
(bench/logger.cpp:118-120, include/blackhole/extensions/metaformat.hpp:251-260). -/
def make (pattern : Str) : Except Reject Formatter :=
  match literalCount pattern with
  | .error e => .error e
  | .ok n => build n pattern

/-- Whether `format(writer, args...)` compiles with `k` arguments (include/blackhole/extensions/metaformat.hpp:185-197,
224-229). The `if` there is evaluated at run time, so both of its branches are instantiated. -/
def compiles : Formatter → Nat → Bool
  | .last _, _ => true
  | .more _ _, 0 => false
  | .more _ next, k + 1 => compiles next k && compiles next (k + 1)

/-- `write_decimal` (include/blackhole/extensions/format.hpp:1953-1970) for a type of `bits` bits. -/
def writeDecimal (bits : Nat) (value : Int) : Except Fmt.Err Str := do
  let unsigned := (value % 2 ^ bits).toNat
  let powers := if bits ≤ 32 then Fmt.powers32 else Fmt.powers64
  if value < 0 then
    let abs := (2 ^ bits - unsigned) % 2 ^ bits
    let n ← Fmt.countDigits powers abs
    let b ← Fmt.formatDecimal (bits + 1) (List.replicate (1 + n) none) (1 + n) abs
    let b ← Fmt.put b 0 '-'
    Fmt.finish b
  else
    let n ← Fmt.countDigits powers unsigned
    let b ← Fmt.formatDecimal (bits + 1) (List.replicate n none) n unsigned
    Fmt.finish b

/-- `writer << value` (include/blackhole/extensions/format.hpp:2099-2173), which `format_traits` calls
(include/blackhole/extensions/metaformat.hpp:162-169). There is no overload for `bool`: it is promoted to `int`. `fd`
renders doubles. -/
def stream (fd : Fmt.Spec → Nat → Except Fmt.Err Str) : Arg → Except Fmt.Err Str
  | .int z => writeDecimal 32 z
  | .uint n => Fmt.writeInt 32 false {} n
  | .long z => writeDecimal 64 z
  | .ulong n => Fmt.writeInt 64 false {} n
  | .bool b => writeDecimal 32 (if b then 1 else 0)
  | .char c => .ok [c]
  | .double bits => fd {} bits
  | .cstr s => .ok (Config.cstr s)
  | .str s _ => .ok s
  | .strNull => .ok []

/-- How a call of `format` ends (include/blackhole/extensions/metaformat.hpp:185-197, 224-229). -/
inductive Failure where
  | notCompiled
  | run (e : Fmt.Err)
  deriving DecidableEq, Repr

/-- Output in front of what the rest of the call writes (include/blackhole/extensions/metaformat.hpp:189, 228). -/
def prepend (s : Str) : Except Failure Str → Except Failure Str
  | .error e => .error e
  | .ok t => .ok (s ++ t)

/-- `format_traits::format`, then the rest of the call (include/blackhole/extensions/metaformat.hpp:191-196). -/
def andThen (out : Except Fmt.Err Str) (rest : Except Failure Str) : Except Failure Str :=
  match out with
  | .error e => .error (.run e)
  | .ok s => prepend s rest

/-- `formatter<N>::format` (include/blackhole/extensions/metaformat.hpp:185-197, 224-229): what is written. -/
def Formatter.format (fd : Fmt.Spec → Nat → Except Fmt.Err Str) : Formatter → List Arg → Except Failure Str
  | .last literal, _ => .ok literal.data
  | .more _ _, [] => .error .notCompiled
  | .more literal next, arg :: args =>
    prepend literal.data
      (if literal.placeholderNext then andThen (stream fd arg) (next.format fd args)
       else next.format fd (arg :: args))

/-- A call of `format` with these arguments, if it compiles (include/blackhole/extensions/metaformat.hpp:185-197,
224-229). -/
def Formatter.call (fd : Fmt.Spec → Nat → Except Fmt.Err Str) (f : Formatter) (args : List Arg) : Except Failure Str :=
  if compiles f args.length then f.format fd args else .error .notCompiled

end Blackhole.MetaFormat
