import Verif.StringView.Model

/-!
# String references of the bundled fmt (include/blackhole/extensions/format.hpp:279-348)

`fmt::StringRef` is what the names of arguments are kept in. A reference is a pointer into a block of memory and a size, as
a view is (`Verif.StringView`). Simplification: the result of `std::char_traits<char>::compare` is taken to be -1, 0 or 1;
the code only looks at its sign.
-/

namespace Blackhole.StringRef

open StringView (View Fault)

/-- `std::char_traits<char>::length` on the memory from `i` on, with `n` characters up to the end of the block
(include/blackhole/extensions/format.hpp:296): there has to be a NUL. -/
def strlen (v : View) (i : Nat) : Nat → Except Fault Nat
  | 0 => .error (.ub .outOfBounds)
  | n + 1 =>
    match v.read i with
    | .error e => .error e
    | .ok c =>
      if c = '\x00' then .ok 0
      else
        match strlen v (i + 1) n with
        | .error e => .error e
        | .ok k => .ok (k + 1)

/-- From a C string (include/blackhole/extensions/format.hpp:295-296). -/
def ofCString (mem : Str) (off : Nat) : Except Fault View :=
  (strlen { mem := mem, off := off, size := 0 } 0 (mem.length - off)).map fun n => { mem := mem, off := off, size := n }

/-- From a `std::string` (include/blackhole/extensions/format.hpp:303-304), whose buffer ends with NUL. -/
def ofString (s : Str) : View := { mem := s ++ ['\x00'], off := 0, size := s.length }

/-- `to_string` (include/blackhole/extensions/format.hpp:311-313). -/
def toString (v : View) : Except Fault Str := v.copy 0 v.size

/-- `std::char_traits<char>::compare` from position `i` on (include/blackhole/extensions/format.hpp:324): the first
characters that differ decide, as unsigned numbers. -/
def traitsCompare (a b : View) (i : Nat) : Nat → Except Fault Int
  | 0 => .ok 0
  | n + 1 =>
    match a.read i, b.read i with
    | .error e, _ => .error e
    | _, .error e => .error e
    | .ok x, .ok y =>
      if x.toNat < y.toNat then .ok (-1)
      else if y.toNat < x.toNat then .ok 1
      else traitsCompare a b (i + 1) n

/-- `compare` (include/blackhole/extensions/format.hpp:322-328). -/
def compare (a b : View) : Except Fault Int :=
  let size := min a.size b.size
  match traitsCompare a b 0 size with
  | .error e => .error e
  | .ok result =>
    if result = 0 then .ok (if a.size = b.size then 0 else if a.size < b.size then -1 else 1) else .ok result

/-- `operator==` (include/blackhole/extensions/format.hpp:330-332). -/
def eq (a b : View) : Except Fault Bool := (compare a b).map fun r => decide (r = 0)
/-- `operator!=` (include/blackhole/extensions/format.hpp:333-335). -/
def ne (a b : View) : Except Fault Bool := (compare a b).map fun r => decide (r ≠ 0)
/-- `operator<` (include/blackhole/extensions/format.hpp:336-338). -/
def lt (a b : View) : Except Fault Bool := (compare a b).map fun r => decide (r < 0)
/-- `operator<=` (include/blackhole/extensions/format.hpp:339-341). -/
def le (a b : View) : Except Fault Bool := (compare a b).map fun r => decide (r ≤ 0)
/-- `operator>` (include/blackhole/extensions/format.hpp:342-344). -/
def gt (a b : View) : Except Fault Bool := (compare a b).map fun r => decide (r > 0)
/-- `operator>=` (include/blackhole/extensions/format.hpp:345-347). -/
def ge (a b : View) : Except Fault Bool := (compare a b).map fun r => decide (r ≥ 0)

end Blackhole.StringRef
