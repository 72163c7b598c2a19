import Verif.Base

/-!
# String views (include/blackhole/stdext/string_view.hpp)

A view points into a block of memory; reading outside of the block is undefined behaviour.
-/

namespace Blackhole.StringView

/-- `data_` and `size_` (include/blackhole/stdext/string_view.hpp:38-43): `data_` is an offset into a block of memory. -/
structure View where
  mem : Str
  off : Nat
  size : Nat
  deriving DecidableEq, Repr

/-- What an operation on a view can end in (include/blackhole/stdext/string_view.hpp:94-175). -/
inductive Fault where
  | ub (u : UB)
  /-- `std::out_of_range`. -/
  | outOfRange
  deriving DecidableEq, Repr

/-- `*(data_ + i)` (include/blackhole/stdext/string_view.hpp:104-106). -/
def View.read (v : View) (i : Nat) : Except Fault Char :=
  match v.mem[v.off + i]? with
  | some c => .ok c
  | none => .error (.ub .outOfBounds)

/-- The empty view (include/blackhole/stdext/string_view.hpp:47-51). -/
def View.empty : View := { mem := [], off := 0, size := 0 }

/-- A view of a character array of `N` elements, the last of which is left out
(include/blackhole/stdext/string_view.hpp:56-60). -/
def View.ofArray (array : Str) : View := { mem := array, off := 0, size := array.length - 1 }

/-- A view of a `std::string`, whose buffer ends with NUL (include/blackhole/stdext/string_view.hpp:75-78). -/
def View.ofString (s : Str) : View := { mem := s ++ ['\x00'], off := 0, size := s.length }

/-- `operator[]` (include/blackhole/stdext/string_view.hpp:104-108). -/
def View.get (v : View) (i : Nat) : Except Fault Char :=
  if i < v.size then v.read i else .error .outOfRange

/-- `substr` (include/blackhole/stdext/string_view.hpp:122-127). -/
def View.substr (v : View) (pos count : Nat) : Except Fault View :=
  if pos ≤ v.size then .ok { v with off := v.off + pos, size := min count (v.size - pos) }
  else .error .outOfRange

/-- Copying `n` characters from position `i` on (include/blackhole/stdext/string_view.hpp:112-117). -/
def View.copy (v : View) (i : Nat) : Nat → Except Fault Str
  | 0 => .ok []
  | n + 1 =>
    match v.read i with
    | .error e => .error e
    | .ok c =>
      match v.copy (i + 1) n with
      | .error e => .error e
      | .ok s => .ok (c :: s)

/-- `to_string` (include/blackhole/stdext/string_view.hpp:113-118). -/
def View.toStr (v : View) : Except Fault Str := v.copy 0 v.size

/-- `Traits::compare(a, b, n) == 0`, from position `i` on (include/blackhole/stdext/string_view.hpp:136-160). -/
def same (a b : View) (i : Nat) : Nat → Except Fault Bool
  | 0 => .ok true
  | n + 1 =>
    match a.read i, b.read i with
    | .error e, _ => .error e
    | _, .error e => .error e
    | .ok x, .ok y => if x = y then same a b (i + 1) n else .ok false

/-- `operator==` (include/blackhole/stdext/string_view.hpp:137-162). -/
def eq (a b : View) : Except Fault Bool :=
  if a.size = b.size then same a b 0 a.size else .ok false

/-- The value of a `char`, which is signed (include/blackhole/stdext/string_view.hpp:163-169). -/
def charVal (c : Char) : Int := if 128 ≤ c.toNat ∧ c.toNat < 256 then (c.toNat : Int) - 256 else c.toNat

/-- `std::lexicographical_compare` from position `i` on, with `n` and `m` characters left
(include/blackhole/stdext/string_view.hpp:163-169). -/
def lexLt (a b : View) (i : Nat) : Nat → Nat → Except Fault Bool
  | _, 0 => .ok false
  | 0, _ + 1 => .ok true
  | n + 1, m + 1 =>
    match a.read i, b.read i with
    | .error e, _ => .error e
    | _, .error e => .error e
    | .ok x, .ok y =>
      if charVal x < charVal y then .ok true
      else if charVal y < charVal x then .ok false
      else lexLt a b (i + 1) n m

/-- `operator<` (include/blackhole/stdext/string_view.hpp:164-170). -/
def lt (a b : View) : Except Fault Bool := lexLt a b 0 a.size b.size

end Blackhole.StringView
