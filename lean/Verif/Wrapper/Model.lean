import Verif.Root.Model

/-!
# Wrappers as objects (include/blackhole/wrapper.hpp, src/wrapper.cpp)

`wrapper_t` declares no copy or move constructor, and nothing in it prevents the implicit ones: `logger_t` has only its
destructor declared (include/blackhole/logger.hpp:42-65), a reference, `attributes_t` and `attribute_list` can be copied
(include/blackhole/wrapper.hpp:11-13). So wrappers can be copied and moved (they cannot be assigned). The attribute list
of a wrapper is made of views of its own attributes (src/wrapper.cpp:8-16); copying and moving treat it member by member.

A memory model with addresses:

* A `std::string` keeps up to `sso` bytes inside itself (15 in the usual library), unless it has been given more room
  before; longer contents are in a heap block. Moving a string copies short contents and hands over the block of long ones.
* `attributes_t` keeps up to `room` elements inside itself, unless it has been given more room before; more are in a heap
  block. `boost::container::small_vector<attribute_t, 16>` has 16, `std::vector` has none
  (include/blackhole/attributes.hpp:47-51). Moving it moves the elements inside one by one, or hands over the block.
* Objects have numbers, in the order in which they are made. The heap addresses are pairs: block `k` of what was
  allocated for object `n`. Neither is ever used again after its end. (An allocator may do so; what is read through a view
  that dangles is then something else, and undefined behaviour all the same.)
* Reading a view of no bytes reads nothing.

Simplifications: the constructor's parameter is not a separate object; allocation does not fail; the wrapped logger and
how long it lives are not part of this.
-/

namespace Blackhole.Wrapper

open Attr (Value View)

/-- Two sizes in the C++ libraries (`std::string` and `attributes_t`, include/blackhole/wrapper.hpp:10-13). -/
structure Lib where
  sso : Nat
  room : Nat

/-- A heap address (what the members of include/blackhole/wrapper.hpp own): the object it was allocated for and a
number. -/
abbrev Addr := Nat × Nat

/-- A `std::string` object (in `attributes_t`, include/blackhole/wrapper.hpp:10-13): its contents, or its heap block
and size. -/
inductive SObj where
  | short (s : Str)
  | long (a : Addr) (len : Nat)
  deriving DecidableEq, Repr

/-- `value_t` with a real string in it (src/attribute.hpp:9-16). -/
inductive OV where
  | null
  | bool (b : Bool)
  | sint (v : BitVec 64)
  | uint (v : BitVec 64)
  | double (bits : BitVec 64)
  | string (s : SObj)
  | function (id : Nat)
  deriving DecidableEq, Repr

/-- `attribute_t` (include/blackhole/attributes.hpp:45). -/
structure Elem where
  key : SObj
  value : OV
  deriving DecidableEq, Repr

/-- `attributes_t` (`storage`, include/blackhole/wrapper.hpp:10-13): with its elements inside, or with a heap block.
-/
inductive Stor where
  | inside (es : List Elem)
  | block (a : Addr)
  deriving DecidableEq, Repr

/-- A heap block of a string or of `attributes_t` (include/blackhole/wrapper.hpp:10-13). -/
inductive Block where
  | chars (s : Str)
  | elems (es : List Elem)
  deriving DecidableEq, Repr

/-- Where the elements of an `attributes_t` are (`storage`, include/blackhole/wrapper.hpp:10-13). -/
inductive Place where
  | obj (o : Nat)
  | block (a : Addr)
  deriving DecidableEq, Repr

/-- The two parts of an attribute (src/wrapper.cpp:13). -/
inductive Part where
  | key | value
  deriving DecidableEq, Repr

/-- Where characters are (src/wrapper.cpp:13-15): inside the key or the value of an element, or in a heap block. -/
inductive Loc where
  | inside (p : Place) (i : Nat) (part : Part)
  | block (a : Addr)
  deriving DecidableEq, Repr

/-- `string_view` (include/blackhole/stdext/string_view.hpp:29-35). -/
structure SV where
  loc : Loc
  len : Nat
  deriving DecidableEq, Repr

/-- `view_t` with real views in it (src/attribute.hpp:18-25). The view of a function is its address
(src/attribute.cpp:24-26), which is inside the element. -/
inductive VV where
  | null
  | bool (b : Bool)
  | sint (v : BitVec 64)
  | uint (v : BitVec 64)
  | double (bits : BitVec 64)
  | string (s : SV)
  | function (p : Place) (i : Nat)
  deriving DecidableEq, Repr

/-- `wrapper_t` (include/blackhole/wrapper.hpp:11-13) without the reference to the logger. -/
structure Obj where
  storage : Stor
  view : List (SV × VV)
  deriving DecidableEq, Repr

/-- The heap (what the members of include/blackhole/wrapper.hpp own). -/
abbrev Heap := Addr → Option Block

/-- All wrappers made so far (`none` (src/wrapper.cpp:8-16): destroyed), and the heap. -/
structure Mem where
  objs : List (Option Obj)
  heap : Heap

/-- No wrapper exists yet (src/wrapper.cpp:8-16). -/
def Mem.init : Mem := { objs := [], heap := fun _ => none }

/-- Writes a heap block, or frees it (src/wrapper.cpp:10). -/
def put (h : Heap) (a : Addr) (b : Option Block) : Heap := fun x => if x = a then b else h x

/-! ## Reading through views -/

/-- The elements at a place (src/wrapper.cpp:13). -/
def Mem.elemsAt (m : Mem) : Place → Option (List Elem)
  | .obj o =>
    match m.objs[o]? with
    | some (some ⟨.inside es, _⟩) => some es
    | _ => none
  | .block a =>
    match m.heap a with
    | some (.elems es) => some es
    | _ => none

/-- The characters in a string object (src/wrapper.cpp:14). -/
def inString : SObj → Except UB Str
  | .short s => .ok s
  | .long _ _ => .error .dangling

/-- The characters at a location (src/wrapper.cpp:14). -/
def Mem.readLoc (m : Mem) : Loc → Except UB Str
  | .inside p i part =>
    match (m.elemsAt p).bind fun es => es[i]? with
    | none => .error .dangling
    | some e =>
      match part with
      | .key => inString e.key
      | .value =>
        match e.value with
        | .string s => inString s
        | _ => .error .dangling
  | .block a =>
    match m.heap a with
    | some (.chars s) => .ok s
    | _ => .error .dangling

/-- Reading all bytes of a view (src/wrapper.cpp:14). -/
def Mem.readSV (m : Mem) (v : SV) : Except UB Str :=
  if v.len = 0 then .ok []
  else
    match m.readLoc v.loc with
    | .error u => .error u
    | .ok s => if v.len ≤ s.length then .ok (s.take v.len) else .error .dangling

/-- The function at an address (src/attribute.cpp:16-19). -/
def Mem.readFn (m : Mem) (p : Place) (i : Nat) : Except UB Nat :=
  match (m.elemsAt p).bind fun es => es[i]? with
  | some ⟨_, .function id⟩ => .ok id
  | _ => .error .dangling

/-- Reading the value of an attribute (by whoever gets the pack of src/wrapper.cpp:19, 24, 29). -/
def Mem.readVV (m : Mem) : VV → Except UB View
  | .null => .ok .null
  | .bool b => .ok (.bool b)
  | .sint v => .ok (.sint v)
  | .uint v => .ok (.uint v)
  | .double d => .ok (.double d)
  | .string v =>
    match m.readSV v with
    | .error u => .error u
    | .ok s => .ok (.string s)
  | .function p i =>
    match m.readFn p i with
    | .error u => .error u
    | .ok id => .ok (.function id)

/-- Reading a list of attributes (by whoever gets the pack of src/wrapper.cpp:19, 24, 29). -/
def Mem.readList (m : Mem) : List (SV × VV) → Except UB AttrList
  | [] => .ok []
  | (k, v) :: rest =>
    match m.readSV k, m.readVV v, m.readList rest with
    | .ok k, .ok v, .ok rest => .ok ((k, v) :: rest)
    | .error u, _, _ => .error u
    | _, .error u, _ => .error u
    | _, _, .error u => .error u

/-- The attributes that a log call through wrapper `o` adds to the pack (src/wrapper.cpp:18-31), as everybody behind it
reads them. -/
def Mem.log (m : Mem) (o : Nat) : Except UB AttrList :=
  match m.objs[o]? with
  | some (some ob) => m.readList ob.view
  | _ => .error .dangling

/-! ## Making storage -/

/-- An attribute that the user gives, with whether its strings have been given more room before (src/wrapper.cpp:8).
-/
structure Given where
  key : Str
  value : Value
  roomyKey : Bool := false
  roomyValue : Bool := false

/-- A string with these characters (src/wrapper.cpp:10); its block, if it needs one, is at `a`. -/
def newStr (lib : Lib) (roomy : Bool) (a : Addr) (s : Str) (h : Heap) : SObj × Heap :=
  if roomy = false ∧ s.length ≤ lib.sso then (.short s, h) else (.long a s.length, put h a (some (.chars s)))

/-- The value of an attribute, as in `newStr` (src/wrapper.cpp:10). -/
def newValue (lib : Lib) (roomy : Bool) (a : Addr) (v : Value) (h : Heap) : OV × Heap :=
  match v with
  | .null => (.null, h)
  | .bool b => (.bool b, h)
  | .sint v => (.sint v, h)
  | .uint v => (.uint v, h)
  | .double d => (.double d, h)
  | .string s => let (s, h) := newStr lib roomy a s h; (.string s, h)
  | .function id => (.function id, h)

/-- Elements from number `i` on, of what belongs to object `n` (src/wrapper.cpp:10). -/
def newElems (lib : Lib) (n : Nat) : Nat → List Given → Heap → List Elem × Heap
  | _, [], h => ([], h)
  | i, g :: gs, h =>
    let (key, h) := newStr lib g.roomyKey (n, 2 * i + 1) g.key h
    let (value, h) := newValue lib g.roomyValue (n, 2 * i + 2) g.value h
    let (es, h) := newElems lib n (i + 1) gs h
    (⟨key, value⟩ :: es, h)

/-- `attributes_t` with these elements (src/wrapper.cpp:10). -/
def store (lib : Lib) (n : Nat) (spilled : Bool) (gs : List Given) (h : Heap) : Stor × Heap :=
  let (es, h) := newElems lib n 0 gs h
  if spilled = false ∧ gs.length ≤ lib.room then (.inside es, h) else (.block (n, 0), put h (n, 0) (some (.elems es)))

/-! ## Views -/

/-- A view of a string object in an element (src/wrapper.cpp:14). -/
def viewOfStr (p : Place) (i : Nat) (part : Part) : SObj → SV
  | .short s => ⟨.inside p i part, s.length⟩
  | .long a len => ⟨.block a, len⟩

/-- `view_t(const value_t&)` (src/attribute.cpp:21-32, 248-250). -/
def viewOfValue (p : Place) (i : Nat) : OV → VV
  | .null => .null
  | .bool b => .bool b
  | .sint v => .sint v
  | .uint v => .uint v
  | .double d => .double d
  | .string s => .string (viewOfStr p i .value s)
  | .function _ => .function p i

/-- The loop in the constructor (src/wrapper.cpp:13-15), from element `i` on. -/
def viewOfElems (p : Place) : Nat → List Elem → List (SV × VV)
  | _, [] => []
  | i, e :: es => (viewOfStr p i .key e.key, viewOfValue p i e.value) :: viewOfElems p (i + 1) es

/-- Where the elements of the storage of object `o` are (src/wrapper.cpp:13). -/
def Stor.place (o : Nat) : Stor → Place
  | .inside _ => .obj o
  | .block a => .block a

/-- The elements of a storage (src/wrapper.cpp:13). -/
def Stor.elems (h : Heap) : Stor → Option (List Elem)
  | .inside es => some es
  | .block a =>
    match h a with
    | some (.elems es) => some es
    | _ => none

/-! ## The operations -/

/-- `wrapper_t(logger_t&, attributes_t)` (src/wrapper.cpp:8-16). -/
def Mem.construct (lib : Lib) (m : Mem) (spilled : Bool) (gs : List Given) : Mem :=
  let n := m.objs.length
  let (storage, h) := store lib n spilled gs m.heap
  { objs := m.objs ++ [some { storage, view := viewOfElems (storage.place n) 0 ((storage.elems h).getD []) }], heap := h }

/-- The characters of a string, for a copy of it (the implicit copy constructor, include/blackhole/wrapper.hpp:10-13).
-/
def textOf (h : Heap) : SObj → Except UB Str
  | .short s => .ok s
  | .long a _ =>
    match h a with
    | some (.chars s) => .ok s
    | _ => .error .dangling

/-- The value of an attribute, for a copy of it (the implicit copy constructor, include/blackhole/wrapper.hpp:10-13).
-/
def valueOf (h : Heap) : OV → Except UB Value
  | .null => .ok .null
  | .bool b => .ok (.bool b)
  | .sint v => .ok (.sint v)
  | .uint v => .ok (.uint v)
  | .double d => .ok (.double d)
  | .string s =>
    match textOf h s with
    | .error u => .error u
    | .ok s => .ok (.string s)
  | .function id => .ok (.function id)

/-- What a copy of the elements is made of (the implicit copy constructor, include/blackhole/wrapper.hpp:10-13). -/
def contents (h : Heap) : List Elem → Except UB (List Given)
  | [] => .ok []
  | e :: es =>
    match textOf h e.key, valueOf h e.value, contents h es with
    | .ok key, .ok value, .ok gs => .ok ({ key, value } :: gs)
    | .error u, _, _ => .error u
    | _, .error u, _ => .error u
    | _, _, .error u => .error u

/-- The implicit copy constructor (include/blackhole/wrapper.hpp:10-13): a copy of the attributes, and a copy of the
views. -/
def Mem.copy (lib : Lib) (m : Mem) (s : Nat) : Except UB Mem :=
  match m.objs[s]? with
  | some (some ob) =>
    match ob.storage.elems m.heap with
    | none => .error .dangling
    | some es =>
      match contents m.heap es with
      | .error u => .error u
      | .ok gs =>
        let (storage, h) := store lib m.objs.length false gs m.heap
        .ok { objs := m.objs ++ [some { storage, view := ob.view }], heap := h }
  | _ => .error .dangling

/-- The implicit move constructor (include/blackhole/wrapper.hpp:10-13): elements inside are moved one by one, which leaves
their strings as they are but in another element; a heap block is handed over; so are the views. Simplification: both
containers of the source are left empty (`small_vector` may keep elements with empty strings; the specification says nothing
about the source, and views of short strings in them reach behind their ends, which is undefined behaviour as well). -/
def Mem.move (m : Mem) (s : Nat) : Except UB Mem :=
  match m.objs[s]? with
  | some (some ob) => .ok { m with objs := m.objs.set s (some ⟨.inside [], []⟩) ++ [some ob] }
  | _ => .error .dangling

/-- Frees what a string owns (the implicit destructor, include/blackhole/wrapper.hpp:10-13). -/
def freeStr (h : Heap) : SObj → Heap
  | .short _ => h
  | .long a _ => put h a none

/-- Frees what a value owns (the implicit destructor, include/blackhole/wrapper.hpp:10-13). -/
def freeValue (h : Heap) : OV → Heap
  | .string s => freeStr h s
  | _ => h

/-- Frees what elements own (the implicit destructor, include/blackhole/wrapper.hpp:10-13). -/
def freeElems : Heap → List Elem → Heap
  | h, [] => h
  | h, e :: es => freeElems (freeValue (freeStr h e.key) e.value) es

/-- Frees what a storage owns (the implicit destructor, include/blackhole/wrapper.hpp:10-13). -/
def freeStor (h : Heap) : Stor → Heap
  | .inside es => freeElems h es
  | .block a =>
    match h a with
    | some (.elems es) => put (freeElems h es) a none
    | _ => h

/-- The implicit destructor (include/blackhole/wrapper.hpp:10-13). -/
def Mem.destroy (m : Mem) (o : Nat) : Except UB Mem :=
  match m.objs[o]? with
  | some (some ob) => .ok { objs := m.objs.set o none, heap := freeStor m.heap ob.storage }
  | _ => .error .dangling

/-- What a program may do with wrappers (src/wrapper.cpp:8-16 and the implicit members,
include/blackhole/wrapper.hpp:10-13). Each of the first three makes the next object. -/
inductive Op where
  | construct (spilled : Bool) (gs : List Given)
  | copy (s : Nat)
  | move (s : Nat)
  | destroy (o : Nat)

/-- One operation (src/wrapper.cpp:8-16 and the implicit members, include/blackhole/wrapper.hpp:10-13). -/
def Mem.step (lib : Lib) (m : Mem) : Op → Except UB Mem
  | .construct spilled gs => .ok (m.construct lib spilled gs)
  | .copy s => m.copy lib s
  | .move s => m.move s
  | .destroy o => m.destroy o

/-- A program (src/wrapper.cpp:8-16 and the implicit members, include/blackhole/wrapper.hpp:10-13). -/
def Mem.run (lib : Lib) (m : Mem) : List Op → Except UB Mem
  | [] => .ok m
  | op :: ops =>
    match m.step lib op with
    | .error u => .error u
    | .ok m => m.run lib ops

end Blackhole.Wrapper
