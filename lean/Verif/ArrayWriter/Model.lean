import Verif.Buffer.Model
import Verif.Double.Model

/-!
# Writing into an array of the caller (include/blackhole/extensions/format.hpp: `FixedBuffer`, `BasicArrayWriter`)

The buffer is that of Verif/Buffer with the array of the caller in the place of the one inside of the object. Access
outside of the array is undefined behaviour.
-/

namespace Blackhole.ArrayWriter
open Buffer (Arr Buf Op Err)

/-- `BasicArrayWriter(array, size)` (include/blackhole/extensions/format.hpp:2627-2639, 583-589). The array may hold
anything. -/
def make (array : Arr) : Buf := { inl := array, heap := none, size := 0, capacity := array.length }

/-- `FixedBuffer::grow` (src/format.cpp:783-786) always throws `std::runtime_error("buffer overflow")`, here `Err.alloc`.
Operations that grow the buffer (include/blackhole/extensions/format.hpp:465-505) are those of Verif/Buffer without
memory to grow into: `grow_eq` in Verif/ArrayWriter/Props.lean. -/
def grow (_ : Buf) (_ : Nat) : Except Err Buf := .error .alloc

/-- What is done with the writer: text written with `<<` (include/blackhole/extensions/format.hpp:2162-2166), a
character (2146-2149), a field of some size, as integers, padded text and replacement fields are written (1945-1949,
2192-2213), or `clear` (2189). -/
inductive Call where
  | text (s : Str)
  | char (c : Char)
  | field (s : Str)
  | clear
  deriving DecidableEq, Repr

/-- The operation on the buffer (include/blackhole/extensions/format.hpp:481-505, 1945-1949). -/
def Call.op : Call → Op
  | .text s => .append false s
  | .char c => .push false c
  | .field s => .region false s
  | .clear => .clear

/-- Calls one after the other; after an exception the program goes on with the writer as it is
(include/blackhole/extensions/format.hpp:481-505). The flags say which calls returned normally. -/
def run (b : Buf) (calls : List Call) : Except Err (Buf × List Bool) := b.run (calls.map Call.op)

/-- `c_str()` (include/blackhole/extensions/format.hpp:2053-2058): the buffer with the terminating NUL. -/
def cStr (b : Buf) : Except Err Buf := do
  let b ← b.reserve false (b.size + 1)
  b.set b.size '\x00'

/-- `writer << value` of a `double` (include/blackhole/extensions/format.hpp:2127-2130). -/
def streamDouble (lib : Double.Libc) (bits : Nat) (b : Buf) : Except Double.Fail Buf :=
  Double.writeDouble lib false {} bits b

end Blackhole.ArrayWriter
