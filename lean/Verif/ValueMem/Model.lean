import Verif.Attr.Model

/-!
# Attribute values as objects in memory (src/attribute.cpp, class `value_t`)

A `value_t` is raw storage with a `boost::variant` in it, which the class constructs, copies, moves, assigns and destroys
by hand. A `std::string` in it keeps short texts inside itself and longer ones in a block of the heap, so views of a value
point into the object or into the heap. Freed blocks and destroyed objects are really gone: every access to them is
`UB.dangling`. Allocations may fail. Functions are left out: no constructor makes a value of one (C74).
-/

namespace Blackhole.ValueMem

open Blackhole.Attr (Value)

/-- The alternatives without memory of their own (src/attribute.hpp:9-16). -/
inductive Flat where
  | null
  | bool (b : Bool)
  | sint (v : BitVec 64)
  | uint (v : BitVec 64)
  | double (bits : BitVec 64)
  deriving DecidableEq, Repr

/-- What a value holds, as its user sees it (src/attribute.hpp:9-16). -/
inductive Content where
  | flat (f : Flat)
  | text (s : Str)
  deriving DecidableEq, Repr

/-- A `std::string` object (src/attribute.hpp:15): its characters, or the address of its block. -/
inductive SObj where
  | short (s : Str)
  | long (a : Nat)
  deriving DecidableEq, Repr

/-- A `value_t` object: the active alternative of the variant in `storage` (src/attribute.hpp:9-16,
include/blackhole/attribute.hpp:97-104). -/
inductive Obj where
  | flat (f : Flat)
  | string (s : SObj)
  deriving DecidableEq, Repr

/-- A block with the characters of a string (src/attribute.hpp:15) and with how many characters fit. -/
structure Block where
  text : Str
  room : Nat
  deriving DecidableEq, Repr

/-- What the standard library decides for the strings of src/attribute.hpp:15. -/
structure Lib where
  /-- Texts up to this length are kept inside the string. -/
  sso : Nat := 15
  /-- How many characters more than asked for fit into a new block. -/
  spare : Nat → Nat := fun _ => 0
  /-- A string that takes over the block of another one gives its own block in return. -/
  swap : Bool := true

/-- Memory (include/blackhole/attribute.hpp:97-104): the values that are alive by address, the blocks of the heap, and the
next address of a block. -/
structure Mem where
  objs : Nat → Option Obj
  heap : Nat → Option Block
  next : Nat

/-- Nothing yet (include/blackhole/attribute.hpp:97-104). -/
def Mem.init : Mem := { objs := fun _ => none, heap := fun _ => none, next := 0 }

/-- Writes an object, or ends its lifetime (src/attribute.cpp:121-123, 154-156). -/
def Mem.setObj (m : Mem) (o : Nat) (ob : Option Obj) : Mem :=
  { m with objs := fun x => if x = o then ob else m.objs x }

/-- Writes a block, or frees it (src/attribute.hpp:15, what `std::string` does). -/
def Mem.setHeap (m : Mem) (a : Nat) (b : Option Block) : Mem :=
  { m with heap := fun x => if x = a then b else m.heap x }

/-- The characters of a string (src/attribute.hpp:15). -/
def Mem.text (m : Mem) : SObj → Except UB Str
  | .short s => .ok s
  | .long a =>
    match m.heap a with
    | some b => .ok b.text
    | none => .error .dangling

/-- What a visitor or `get` sees in an object (src/attribute.cpp:141-143, 158-167): the active alternative. -/
def Mem.read (m : Mem) (o : Nat) : Except UB Content :=
  match m.objs o with
  | none => .error .dangling
  | some (.flat f) => .ok (.flat f)
  | some (.string s) =>
    match m.text s with
    | .ok t => .ok (.text t)
    | .error e => .error e

/-- A new string with a text (src/attribute.hpp:15, the constructors of `std::string`). -/
def newStr (lib : Lib) (m : Mem) (s : Str) : SObj × Mem :=
  if s.length ≤ lib.sso then (.short s, m)
  else (.long m.next,
    { m.setHeap m.next (some { text := s, room := s.length + lib.spare s.length }) with next := m.next + 1 })

/-- A new alternative (src/attribute.cpp:153-156, `construct`). -/
def newObj (lib : Lib) (m : Mem) : Content → Obj × Mem
  | .flat f => (.flat f, m)
  | .text s => let r := newStr lib m s; (.string r.1, r.2)

/-- Whether a new alternative needs a block (src/attribute.cpp:153-156). -/
def needs (lib : Lib) : Content → Bool
  | .flat _ => false
  | .text s => lib.sso < s.length

/-- The destructor of an alternative (src/attribute.cpp:121-123); freeing a block twice is an error. -/
def free (m : Mem) : Obj → Except UB Mem
  | .flat _ => .ok m
  | .string (.short _) => .ok m
  | .string (.long a) =>
    match m.heap a with
    | some _ => .ok (m.setHeap a none)
    | none => .error .dangling

/-- Whether an operation is done or has thrown `std::bad_alloc` (src/attribute.cpp:113-139). -/
inductive Outcome where
  | done
  | badAlloc
  deriving DecidableEq, Repr

/-- `value_t(x)` (src/attribute.cpp:53-111, 153-156). The string of the parameter is made first and then moved; here it is
made in place. -/
def Mem.construct (lib : Lib) (m : Mem) (o : Nat) (c : Content) (fails : Bool) : Outcome × Mem :=
  if fails && needs lib c then (.badAlloc, m)
  else let r := newObj lib m c; (.done, r.2.setObj o (some r.1))

/-- `value_t(const value_t&)` (src/attribute.cpp:113-115). -/
def Mem.copy (lib : Lib) (m : Mem) (o s : Nat) (fails : Bool) : Except UB (Outcome × Mem) :=
  match m.read s with
  | .error e => .error e
  | .ok c => .ok (m.construct lib o c fails)

/-- What is left in a string that a block was taken from, or that was moved (src/attribute.cpp:117-119): nothing. -/
def movedFrom : Obj → Obj
  | .flat f => .flat f
  | .string _ => .string (.short [])

/-- `value_t(value_t&&)` (src/attribute.cpp:117-119): the variant moves the active alternative; a string gives its
characters or its block. -/
def Mem.move (m : Mem) (o s : Nat) : Except UB Mem :=
  match m.objs s with
  | none => .error .dangling
  | some ob => .ok ((m.setObj s (some (movedFrom ob))).setObj o (some ob))

/-- Destroys what is in `d` and puts an alternative there (src/attribute.cpp:125-139, assignment of a `boost::variant` with
another active alternative, and of a string that does not fit). -/
def Mem.replace (m : Mem) (d : Nat) (old new : Obj) : Except UB Mem :=
  match free m old with
  | .error e => .error e
  | .ok m => .ok (m.setObj d (some new))

/-- `operator=(const value_t&)` (src/attribute.cpp:125-131). A string is assigned to a string in place if it fits the
block; otherwise the copy is made first, so that nothing has changed if that fails, then the old alternative is destroyed
and the copy moved to its place. -/
def Mem.assign (lib : Lib) (m : Mem) (d s : Nat) (fails : Bool) : Except UB (Outcome × Mem) :=
  if d = s then .ok (.done, m)
  else match m.objs d, m.read s with
    | none, _ => .error .dangling
    | _, .error e => .error e
    | some old, .ok c =>
      let other : Except UB (Outcome × Mem) :=
        if fails && needs lib c then .ok (.badAlloc, m)
        else
          let r := newObj lib m c
          match r.2.replace d old r.1 with
          | .error e => .error e
          | .ok m => .ok (.done, m)
      match old, c with
      | .string (.long a), .text t =>
        match m.heap a with
        | none => .error .dangling
        | some b => if t.length ≤ b.room then .ok (.done, m.setHeap a (some { b with text := t })) else other
      | _, _ => other

/-- `operator=(value_t&&)` (src/attribute.cpp:133-139). Between strings: short characters are copied into the block, if
there is one they fit into; a block changes its owner, possibly in exchange. Otherwise the old alternative is destroyed and
the other one moved to its place. -/
def Mem.moveAssign (lib : Lib) (m : Mem) (d s : Nat) : Except UB Mem :=
  if d = s then .ok m
  else match m.objs d, m.objs s with
    | some (.string (.long a)), some (.string (.short t)) =>
      match m.heap a with
      | none => .error .dangling
      | some b =>
        if t.length ≤ b.room then
          .ok ((m.setHeap a (some { b with text := t })).setObj s (some (.string (.short []))))
        else .error .outOfBounds
    | some (.string (.long a)), some (.string (.long a')) =>
      match m.heap a with
      | none => .error .dangling
      | some b =>
        if lib.swap then
          .ok (((m.setHeap a (some { b with text := [] })).setObj d (some (.string (.long a')))).setObj s
            (some (.string (.long a))))
        else
          .ok (((m.setHeap a none).setObj d (some (.string (.long a')))).setObj s (some (.string (.short []))))
    | some old, some new =>
      match m.replace d old new with
      | .error e => .error e
      | .ok m => .ok (m.setObj s (some (movedFrom new)))
    | _, _ => .error .dangling

/-- `~value_t()` (src/attribute.cpp:121-123). -/
def Mem.destroy (m : Mem) (o : Nat) : Except UB Mem :=
  match m.objs o with
  | none => .error .dangling
  | some ob =>
    match free m ob with
    | .error e => .error e
    | .ok m => .ok (m.setObj o none)

/-- The operations on values (include/blackhole/attribute.hpp:106-151), with whether an allocation would fail. -/
inductive Op where
  | construct (o : Nat) (c : Content) (fails : Bool)
  | copy (o source : Nat) (fails : Bool)
  | move (o source : Nat)
  | assign (target source : Nat) (fails : Bool)
  | moveAssign (target source : Nat)
  | destroy (o : Nat)
  deriving DecidableEq, Repr

/-- One operation (include/blackhole/attribute.hpp:106-151). -/
def Mem.step (lib : Lib) (m : Mem) : Op → Except UB (Outcome × Mem)
  | .construct o c fails => .ok (m.construct lib o c fails)
  | .copy o s fails => m.copy lib o s fails
  | .move o s => (m.move o s).map fun m => (.done, m)
  | .assign d s fails => m.assign lib d s fails
  | .moveAssign d s => (m.moveAssign lib d s).map fun m => (.done, m)
  | .destroy o => (m.destroy o).map fun m => (.done, m)

/-! ## Views -/

/-- Where the characters of a view are (include/blackhole/stdext/string_view.hpp:29-35): in the string inside an object, or
in a block. -/
inductive Loc where
  | inObj (o : Nat)
  | heap (a : Nat)
  deriving DecidableEq, Repr

/-- `view_t` (src/attribute.hpp:18-25): small values are copied, of a text there are a pointer and a length. -/
inductive View where
  | flat (f : Flat)
  | text (loc : Loc) (len : Nat)
  deriving DecidableEq, Repr

/-- `view_t(const value_t&)` (src/attribute.cpp:21-32, 248-250). -/
def Mem.view (m : Mem) (o : Nat) : Except UB View :=
  match m.objs o with
  | none => .error .dangling
  | some (.flat f) => .ok (.flat f)
  | some (.string (.short s)) => .ok (.text (.inObj o) s.length)
  | some (.string (.long a)) =>
    match m.heap a with
    | none => .error .dangling
    | some b => .ok (.text (.heap a) b.text.length)

/-- The first characters of what is there now (include/blackhole/stdext/string_view.hpp:45-60); it is an error if there
are fewer, since the characters behind the end of a string are not valid. -/
def first (len : Nat) (s : Str) : Except UB Content :=
  if len ≤ s.length then .ok (.text (s.take len)) else .error .outOfBounds

/-- What a visitor or `get` sees through a view (src/attribute.cpp:256-258, 273-282). -/
def Mem.readView (m : Mem) : View → Except UB Content
  | .flat f => .ok (.flat f)
  | .text (.inObj o) len =>
    match m.objs o with
    | some (.string (.short s)) => first len s
    | _ => .error .dangling
  | .text (.heap a) len =>
    match m.heap a with
    | some b => first len b.text
    | none => .error .dangling

end Blackhole.ValueMem
