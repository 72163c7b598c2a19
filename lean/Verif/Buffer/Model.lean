import Verif.Base

/-!
# The writer's buffer (include/blackhole/extensions/format.hpp: `Buffer`, `MemoryBuffer`, `BasicMemoryWriter`)

Storage is explicit: an array inside of the object and possibly one on the heap, both of fixed length, whose elements
may be unwritten. Access outside of the array that `ptr_` points to is undefined behaviour. `std::size_t` has 64 bits;
the standard allocator refuses arrays of 2^63 bytes and more.
-/

namespace Blackhole.Buffer

/-- `INLINE_BUFFER_SIZE` (include/blackhole/extensions/format.hpp:413). -/
def inlineSize : Nat := 500

/-- How an operation of a buffer ends if it does not return (include/blackhole/extensions/format.hpp:570, 575-576: the
allocator and the copies of `grow`). -/
inductive Err where
  /-- `std::bad_alloc` or `std::length_error` of the allocator. -/
  | alloc
  | ub (u : UB)
  deriving DecidableEq, Repr

/-- An array such as `data_` (include/blackhole/extensions/format.hpp:514) or what `allocate` returns (570); `none` is
an element that was never written. -/
abbrev Arr := List (Option Char)

/-- `MemoryBuffer<char, 500>` (include/blackhole/extensions/format.hpp:512-527): `heap = none` means that `ptr_` points
to the array inside. -/
structure Buf where
  inl : Arr
  heap : Option Arr
  size : Nat
  capacity : Nat
  deriving DecidableEq, Repr

/-- The constructor (include/blackhole/extensions/format.hpp:525-526). -/
def Buf.init : Buf := { inl := List.replicate inlineSize none, heap := none, size := 0, capacity := inlineSize }

/-- The array `ptr_` points to (include/blackhole/extensions/format.hpp:438). -/
def Buf.arr (b : Buf) : Arr :=
  match b.heap with
  | some a => a
  | none => b.inl

/-- The array `ptr_` points to (include/blackhole/extensions/format.hpp:438) has other contents. -/
def Buf.setArr (b : Buf) (a : Arr) : Buf :=
  match b.heap with
  | some _ => { b with heap := some a }
  | none => { b with inl := a }

/-- `ptr_[i] = c` (include/blackhole/extensions/format.hpp:486, 493). -/
def Buf.set (b : Buf) (i : Nat) (c : Char) : Except Err Buf :=
  if i < b.arr.length then .ok (b.setArr (b.arr.set i (some c))) else .error (.ub .outOfBounds)

/-- `std::copy` to `ptr_ + i` (include/blackhole/extensions/format.hpp:503). -/
def Buf.copyTo (b : Buf) (i : Nat) : Str → Except Err Buf
  | [] => .ok b
  | c :: s =>
    match b.set i c with
    | .error e => .error e
    | .ok b => b.copyTo (i + 1) s

/-- Reading the first `n` elements of an array for copying (include/blackhole/extensions/format.hpp:539-540, 572-573);
unwritten ones may be copied. -/
def readRaw (a : Arr) (n : Nat) : Except Err Arr :=
  if n ≤ a.length then .ok (a.take n) else .error (.ub .outOfBounds)

/-- `grow` (include/blackhole/extensions/format.hpp:566-583); `room` says whether there is memory. -/
def Buf.grow (b : Buf) (room : Bool) (size : Nat) : Except Err Buf :=
  let newCapacity := max size ((b.capacity + b.capacity / 2) % 2 ^ 64)
  if !room || newCapacity ≥ 2 ^ 63 then .error .alloc
  else
    match readRaw b.arr b.size with
    | .error e => .error e
    | .ok old =>
      if b.size ≤ newCapacity then
        .ok { b with heap := some (old ++ List.replicate (newCapacity - b.size) none), capacity := newCapacity }
      else .error (.ub .outOfBounds)

/-- `resize` (include/blackhole/extensions/format.hpp:465-469). -/
def Buf.resize (b : Buf) (room : Bool) (n : Nat) : Except Err Buf :=
  if n > b.capacity then
    match b.grow room n with
    | .error e => .error e
    | .ok b => .ok { b with size := n }
  else .ok { b with size := n }

/-- `reserve` (include/blackhole/extensions/format.hpp:476-479). -/
def Buf.reserve (b : Buf) (room : Bool) (n : Nat) : Except Err Buf :=
  if n > b.capacity then b.grow room n else .ok b

/-- `clear` (include/blackhole/extensions/format.hpp:481). -/
def Buf.clear (b : Buf) : Buf := { b with size := 0 }

/-- `push_back` (include/blackhole/extensions/format.hpp:483-487). -/
def Buf.pushBack (b : Buf) (room : Bool) (c : Char) : Except Err Buf := do
  let b ← if b.size = b.capacity then b.grow room ((b.size + 1) % 2 ^ 64) else .ok b
  let b ← b.set b.size c
  .ok { b with size := b.size + 1 }

/-- `append` (include/blackhole/extensions/format.hpp:497-505). -/
def Buf.append (b : Buf) (room : Bool) (s : Str) : Except Err Buf := do
  let n := (b.size + s.length) % 2 ^ 64
  let b ← if n > b.capacity then b.grow room n else .ok b
  let b ← b.copyTo b.size s
  .ok { b with size := b.size + s.length }

/-- `append` (include/blackhole/extensions/format.hpp:497-505) of the characters from `i` to `j` of the buffer itself,
as in `writer << writer.c_str()`: `grow` (582-583) frees the old heap array before the characters are copied from it.
-/
def Buf.appendOwn (b : Buf) (room : Bool) (i j : Nat) : Except Err Buf :=
  let n := (b.size + (j - i)) % 2 ^ 64
  if n > b.capacity ∧ b.heap.isSome then
    match b.grow room n with
    | .error e => .error e
    | .ok _ => .error (.ub .dangling)
  else
    match ((b.arr.take j).drop i).mapM id with
    | some s => b.append room s
    | none => .error (.ub .uninitialised)

/-- `grow_buffer(n)` (include/blackhole/extensions/format.hpp:1945-1949) and a `std::copy` of `n` characters to its
result, as in `write_str` (2192-2213). -/
def Buf.region (b : Buf) (room : Bool) (s : Str) : Except Err Buf := do
  let start := b.size
  let b ← b.resize room ((start + s.length) % 2 ^ 64)
  b.copyTo start s

/-- `str()`, `data()` with `size()` (include/blackhole/extensions/format.hpp:2041, 2047, 2065-2067): what a reader sees. -/
def Buf.read (b : Buf) : Except Err Str :=
  match readRaw b.arr b.size with
  | .error e => .error e
  | .ok a =>
    match a.mapM id with
    | some s => .ok s
    | none => .error (.ub .uninitialised)

/-- `move` (include/blackhole/extensions/format.hpp:532-547): the target's own storage has been given up or does not
exist yet. The second result is what is left of the source. -/
def Buf.move (target : Arr) (other : Buf) : Except Err (Buf × Buf) :=
  match other.heap with
  | none =>
    match readRaw other.inl other.size with
    | .error e => .error e
    | .ok a =>
      if other.size ≤ target.length then
        .ok ({ inl := a ++ target.drop other.size, heap := none, size := other.size, capacity := other.capacity }, other)
      else .error (.ub .outOfBounds)
  | some a =>
    .ok ({ inl := target, heap := some a, size := other.size, capacity := other.capacity }, { other with heap := none })

/-- The move constructor (include/blackhole/extensions/format.hpp:550-552). -/
def Buf.moved (other : Buf) : Except Err (Buf × Buf) := Buf.move (List.replicate inlineSize none) other

/-- Move assignment (include/blackhole/extensions/format.hpp:554-559) to another object. -/
def Buf.assign (b other : Buf) : Except Err (Buf × Buf) := Buf.move b.inl other

/-- Operations of a writer, each with the answer to its request for memory
(include/blackhole/extensions/format.hpp:465-505, 1945-1949). -/
inductive Op where
  | append (room : Bool) (s : Str)
  | push (room : Bool) (c : Char)
  | region (room : Bool) (s : Str)
  | reserve (room : Bool) (n : Nat)
  | clear
  deriving DecidableEq, Repr

/-- One operation (include/blackhole/extensions/format.hpp:465-505, 1945-1949). -/
def Buf.op (b : Buf) : Op → Except Err Buf
  | .append room s => b.append room s
  | .push room c => b.pushBack room c
  | .region room s => b.region room s
  | .reserve room n => b.reserve room n
  | .clear => .ok b.clear

/-- A sequence of operations (include/blackhole/extensions/format.hpp:465-505, 1945-1949). Only `grow` throws; every
operation calls it before it changes anything, and `grow` itself throws before it changes anything, so that after an
exception the program goes on with the buffer as it was. The flags say which operations returned normally. -/
def Buf.run (b : Buf) : List Op → Except Err (Buf × List Bool)
  | [] => .ok (b, [])
  | o :: os =>
    match b.op o with
    | .ok b => (b.run os).map fun r => (r.1, true :: r.2)
    | .error .alloc => (b.run os).map fun r => (r.1, false :: r.2)
    | .error e => .error e

end Blackhole.Buffer
