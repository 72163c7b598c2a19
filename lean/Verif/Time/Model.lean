import Verif.Base

/-!
# Calendar conversion (src/util/time.hpp)
-/

namespace Blackhole.Time

/-- A value of `uintptr_t` or `unsigned long` (64 bits) (src/util/time.hpp:10-57): the result of every operation is
reduced. -/
def u64 (z : Int) : Int := z % 2 ^ 64

/-- `static_cast<int>` (src/util/time.hpp:32-69). -/
def i32 (z : Int) : Int := (z + 2 ^ 31) % 2 ^ 32 - 2 ^ 31

/-- `struct tm` (filled in src/util/time.hpp:60-72). `gmtoff` and `zone` are `none` when nothing has written them. -/
structure Tm where
  sec : Int
  min : Int
  hour : Int
  mday : Int
  mon : Int
  year : Int
  wday : Int
  yday : Int
  isdst : Int
  gmtoff : Option Int
  zone : Option Str
  deriving DecidableEq, Repr

/-- The locals after lines 31-39 of src/util/time.hpp: year, day of the year (from 1 March), `leap`. -/
structure Gauss where
  year : Int
  yday : Int
  leap : Int

/-- src/util/time.hpp:26-39, for `days` as computed by line 14. -/
def gauss (days : Int) : Gauss :=
  let days := u64 (u64 (days - (31 + 28)) + 719527)
  let year := u64 (u64 (days + 2) * 400) / (365 * 400 + 100 - 4 + 1)
  let yday := i32 (u64 (days - u64 (u64 (u64 (u64 (365 * year) + year / 4) - year / 100) + year / 400)))
  let leap := if year % 4 = 0 ∧ (year % 100 ≠ 0 ∨ year % 400 = 0) then 1 else 0
  if yday < 0 then { year := u64 (year - 1), yday := i32 (u64 (365 + leap + u64 yday)), leap }
  else { year, yday, leap }

/-- `gmtime` (src/util/time.hpp:8-71). The divisions of `int`s round towards zero. `tm_gmtoff` and `tm_zone` are left as
they are; the callers pass a structure nothing has written to (src/formatter/string.cpp:243). -/
def gmtime (t : Int) : Tm :=
  let n := u64 t
  let days := n / 86400
  let wday := u64 (4 + days) % 7
  let n := n % 86400
  let hour := n / 3600
  let n := n % 3600
  let min := n / 60
  let sec := n % 60
  let g := gauss days
  let mon := u64 (((g.yday + 31) * 10).tdiv 306)
  let mday := u64 (u64 (u64 g.yday - u64 (u64 (367 * mon) / 12 - 30)) + 1)
  let year := if g.yday ≥ 306 then u64 (g.year + 1) else g.year
  let mon := if g.yday ≥ 306 then u64 (mon - 10) else u64 (mon + 2)
  let yday := if g.yday ≥ 306 then g.yday - 306 else g.yday + (31 + 28 + g.leap)
  { sec := i32 sec
    min := i32 min
    hour := i32 hour
    mday := i32 mday
    mon := i32 (u64 (mon - 1))
    year := i32 (u64 (year - 1900))
    wday := i32 wday
    yday
    isdst := 0
    gmtoff := none
    zone := none }

/-- What is used of the C library: `gmtime_r`, `localtime_r`, the variables `timezone` and `tzname[0]` (set by `tzset`,
src/util/time.hpp:73-81). -/
structure Libc where
  gmtime_r : Int → Tm
  localtime_r : Int → Tm
  timezone : Int
  tzname : Str

/-- `localtime` (src/util/time.hpp:85-92). The overflow of the subtraction at the ends of `time_t` is left out. -/
def localtime (libc : Libc) (t : Int) : Tm :=
  { libc.gmtime_r (t - libc.timezone) with gmtoff := some libc.timezone, zone := some libc.tzname }

end Blackhole.Time
