import Verif.Date.Model
import Verif.Time.Spec
import Verif.StringFmt.Spec

/-!
# Patterns of timestamps

A pattern is a list of characters and conversions, as `strftime` documents them, and `%f`.
-/

namespace Blackhole.Date

open Time

/-- A number with leading zeros. -/
def zeroPad (width n : Nat) : Str := List.replicate (width - (Nat.toDigits 10 n).length) '0' ++ Nat.toDigits 10 n

/-- The flags, widths and modifiers between `%` and the letter of a conversion. -/
def modifier (c : Char) : Bool :=
  c = 'E' || c = 'O' || c = '_' || c = '-' || c = '0' || c = '^' || c = '#' || c = '+' || Fmt.isDigit c

/-- An ordinary character, or a conversion. -/
inductive Item where
  | char (c : Char)
  | conv (mods : Str) (c : Char)
  deriving DecidableEq

def Item.print : Item → Str
  | .char c => [c]
  | .conv mods c => '%' :: (mods ++ [c])

def printItems : List Item → Str
  | [] => []
  | i :: is => i.print ++ printItems is

def Item.Valid : Item → Prop
  | .char c => c ≠ '%' ∧ c ≠ '\x00'
  | .conv mods c => (∀ m ∈ mods, modifier m) ∧ ¬ modifier c ∧ c ≠ '\x00'

/-- The meaning of an item for `strftime`. -/
def Item.text (conv : Str → Char → Tm → Except UB Str) (tm : Tm) : Item → Except UB Str
  | .char c => .ok [c]
  | .conv mods c => conv mods c tm

/-- One text after the other. -/
def join : List (Except UB Str) → Except UB Str
  | [] => .ok []
  | .error u :: _ => .error u
  | .ok s :: rest =>
    match join rest with
    | .error u => .error u
    | .ok t => .ok (s ++ t)

/-- `strftime` replaces each conversion by what it stands for and copies everything else. -/
def Itemwise (strftime : Str → Tm → Except UB Str) (conv : Str → Char → Tm → Except UB Str) : Prop :=
  ∀ items : List Item, (∀ i ∈ items, i.Valid) → ∀ tm,
    strftime (printItems items) tm = join (items.map (Item.text conv tm))

/-- `%f` and `%s`. -/
def Item.micro : Item := .conv [] 'f'
def Item.epoch : Item := .conv [] 's'

/-- The meaning of an item for the generator: `%f` is the microseconds with six digits, `%s` the seconds since the epoch,
anything else is as for `strftime`. -/
def Item.full (conv : Str → Char → Tm → Except UB Str) (tm : Tm) (secs : Int) (usec : Nat) (i : Item) : Except UB Str :=
  if i = .micro then .ok (zeroPad 6 usec)
  else if i = .epoch then .ok (StringFmt.decimalText secs)
  else i.text conv tm

/-- No escaped percent sign is followed by `f` or `s`. -/
def Unambiguous (items : List Item) : Prop :=
  ∀ a b mods c, items = a ++ .conv mods '%' :: .char c :: b → c ≠ 'f' ∧ c ≠ 's'

/-- No part of the pattern between `%f`s and `%s`s is longer than 1023 characters when rendered. -/
def Short (conv : Str → Char → Tm → Except UB Str) (tm : Tm) (items : List Item) : Prop :=
  ∀ a mid b s, items = a ++ mid ++ b → .micro ∉ mid → .epoch ∉ mid → join (mid.map (Item.text conv tm)) = .ok s →
    s.length < 1024

/-- A `strftime` that reads its pattern once: `pending` are the modifiers of the conversion being read. -/
def strftimeOf (conv : Str → Char → Tm → Except UB Str) (tm : Tm) (pending : Option Str) : Str → Except UB Str
  | [] => .ok []
  | c :: s =>
    match pending with
    | none =>
      if c = '%' then strftimeOf conv tm (some []) s
      else join [.ok [c], strftimeOf conv tm none s]
    | some mods =>
      if modifier c then strftimeOf conv tm (some (mods ++ [c])) s
      else join [conv mods c tm, strftimeOf conv tm none s]

/-- The conversions of the default pattern (POSIX). -/
structure Conversions (conv : Str → Char → Tm → Except UB Str) : Prop where
  percent : ∀ tm, conv [] '%' tm = .ok ['%']
  year : ∀ (tm : Tm) (n : Nat), tm.year + 1900 = (n : Int) → conv [] 'Y' tm = .ok (Nat.toDigits 10 n)
  month : ∀ (tm : Tm) (n : Nat), tm.mon + 1 = (n : Int) → conv [] 'm' tm = .ok (zeroPad 2 n)
  day : ∀ (tm : Tm) (n : Nat), tm.mday = (n : Int) → conv [] 'd' tm = .ok (zeroPad 2 n)
  hour : ∀ (tm : Tm) (n : Nat), tm.hour = (n : Int) → conv [] 'H' tm = .ok (zeroPad 2 n)
  minute : ∀ (tm : Tm) (n : Nat), tm.min = (n : Int) → conv [] 'M' tm = .ok (zeroPad 2 n)
  second : ∀ (tm : Tm) (n : Nat), tm.sec = (n : Int) → conv [] 'S' tm = .ok (zeroPad 2 n)

/-- `YYYY-MM-DD hh:mm:ss.ffffff`, in UTC, of a time in nanoseconds since the epoch. -/
def timeText (ns : Nat) : Str :=
  let sec := ns / 1000000000
  let d := dateOn (sec / 86400)
  Nat.toDigits 10 d.year ++ ch! "-" ++ zeroPad 2 d.month ++ ch! "-" ++ zeroPad 2 d.day ++ ch! " "
    ++ zeroPad 2 (sec % 86400 / 3600) ++ ch! ":" ++ zeroPad 2 (sec % 3600 / 60) ++ ch! ":" ++ zeroPad 2 (sec % 60)
    ++ ch! "." ++ zeroPad 6 (ns / 1000 % 1000000)

/-- `gmtime_r` of the C library is right for the times that a record can carry. -/
def GmtimeOk (libc : Time.Libc) : Prop :=
  ∀ t : Nat, t < 2 ^ 54 → Says (libc.gmtime_r t) (dateOn (t / 86400)) (t % 86400) (weekdayOn (t / 86400)) ∧
    (libc.gmtime_r t).year = ((dateOn (t / 86400)).year : Int) - 1900

/-- `mktime` takes its argument for local standard time; `timezone` is seconds west of UTC. -/
def MktimeOk (libc : Libc) : Prop :=
  ∀ (tm : Tm) (n s : Nat), n * 86400 + s < 2 ^ 54 → Says tm (dateOn n) s (weekdayOn n) →
    tm.year = ((dateOn n).year : Int) - 1900 → (libc.mktime tm).1 = (n * 86400 + s : Nat) + libc.timezone

/-- An offset from UTC, `+hhmm` or `-hhmm`, of seconds east. -/
def offsetText (east : Int) : Str :=
  (if east < 0 then '-' else '+') :: (zeroPad 2 (east.natAbs / 3600) ++ zeroPad 2 (east.natAbs % 3600 / 60))

/-- `%z` is the offset; to print an offset that was never written is undefined. -/
def ZoneOk (conv : Str → Char → Tm → Except UB Str) : Prop :=
  ∀ tm : Tm, conv [] 'z' tm = match tm.gmtoff with
    | none => .error .uninitialised
    | some east => .ok (offsetText east)

end Blackhole.Date
