import Verif.Root.Model

/-!
# Owned records (src/recordbuf.hpp)

A memory model with addresses, so that a view that outlives its storage is visible. A `recordbuf_t` object `o`
contains two `std::string`s, the attribute vector, the views of all three, the pack and the raw copy of
`record_t::inner_t`.

* A `std::string` keeps short contents inside itself, longer contents are in a heap block. Moving a string moves short
  contents and steals the block of long ones.
* The attribute container keeps a few elements inside itself (`boost::container::small_vector`) or none
  (`std::vector`), more elements are in a heap block (include/blackhole/attributes.hpp:46-50). Simplification: the heap
  blocks of the elements' own strings are part of it, so a move of elements moves them too (in fact long ones stay where
  they are; the model lets more views dangle than the code does).
* What the libraries are free to choose is in `Lib`; the theorems hold for all of them.
* Freed blocks and destroyed objects are really gone: every later access is `UB.dangling`.
-/

namespace Blackhole.RecordBuf

open Blackhole.Attr (Value View)
open Blackhole.Root (Rec)

/-- Which of the two strings of a `recordbuf_t` (src/recordbuf.hpp:106-107). -/
inductive Fld where
  | message | formatted
  deriving DecidableEq, Repr

/-- Where the elements of an attribute container are (src/recordbuf.hpp:108). -/
inductive Place where
  /-- Inside the container of a `recordbuf_t` object. -/
  | inObj (o : Nat)
  /-- In a heap block. -/
  | heap (a : Nat)
  deriving DecidableEq, Repr

/-- Where the characters behind a view are (src/recordbuf.hpp:76-84). -/
inductive Loc where
  /-- Inside the string member of a `recordbuf_t` object. -/
  | inObj (o : Nat) (f : Fld)
  /-- In the heap block of a long string. -/
  | heap (a : Nat)
  /-- The key of element `i` of the attributes. -/
  | key (p : Place) (i : Nat)
  /-- The string value of element `i` of the attributes. -/
  | val (p : Place) (i : Nat)
  deriving DecidableEq, Repr

/-- `string_view`: where and how many bytes (include/blackhole/stdext/string_view.hpp:29-35). -/
structure SV where
  loc : Loc
  len : Nat
  deriving DecidableEq, Repr

/-- `attribute::view_t` with real views in it (src/attribute.hpp:18-25). -/
inductive VV where
  | null
  | bool (b : Bool)
  | sint (v : BitVec 64)
  | uint (v : BitVec 64)
  | double (bits : BitVec 64)
  | string (s : SV)
  | function (id : Nat)
  deriving DecidableEq, Repr

/-- A `std::string` object (src/recordbuf.hpp:78, `data`): its contents, or its heap block and size. -/
inductive SObj where
  | short (s : Str)
  | long (a len : Nat)
  deriving DecidableEq, Repr

/-- An `attributes_t` object (src/recordbuf.hpp:78, `data`): its elements, or the heap block with them. -/
inductive VObj where
  | inline (es : List (Str × Value))
  | heap (a : Nat)
  deriving DecidableEq, Repr

/-- A heap block (src/recordbuf.hpp:76-84). -/
inductive Block where
  | str (s : Str)
  | vec (es : List (Str × Value))
  deriving DecidableEq, Repr

/-- `record_t::inner_t` (src/record.hpp:8-20); the references name a member of a `recordbuf_t` object. -/
structure Inner where
  message : Nat × Fld
  formatted : Nat × Fld
  severity : Int
  timestamp : Int
  tid : Nat
  attributes : Nat
  deriving DecidableEq, Repr

/-- `recordbuf_t` (src/recordbuf.hpp:105-113): three `owned_pair`s (76-79), the pack, whose entries refer to the
attribute list of some object, and the raw storage (`none`: never written). -/
structure Obj where
  message : SObj
  messageView : SV
  formatted : SObj
  formattedView : SV
  vec : VObj
  attrView : List (SV × VV)
  pack : List Nat
  inner : Option Inner
  deriving DecidableEq, Repr

/-- What the standard library and Boost decide (src/recordbuf.hpp:81-101). -/
structure Lib where
  /-- Strings up to this length are kept inside the string object. -/
  sso : Nat := 15
  /-- Up to so many attributes are kept inside the container: 16 for `small_vector`, 0 for `std::vector`. -/
  small : Nat := 16
  /-- A string or container that has a heap block keeps it when short contents are assigned to it. -/
  reuse : Bool := true
  /-- A string that takes over the block of another gives its own block in return. -/
  swap : Bool := true
  /-- A pack that was moved from keeps its entry, as a `small_vector` does. -/
  keepsPack : Bool := true
  deriving DecidableEq, Repr

/-- Memory (src/recordbuf.hpp:105-113): the `recordbuf_t` objects alive, the heap, the next unused heap address, and
strings elsewhere, which other code may change or free at any time. -/
structure Mem where
  objs : Nat → Option Obj
  heap : Nat → Option Block
  next : Nat
  foreign : Nat → Option Str
  lib : Lib

/-- No buffer exists yet (src/recordbuf.hpp:105-113). -/
def Mem.init (lib : Lib) : Mem :=
  { objs := fun _ => none, heap := fun _ => none, next := 0, foreign := fun _ => none, lib := lib }

/-- Writes a buffer object (src/recordbuf.hpp:105-113). -/
def Mem.setObj (m : Mem) (o : Nat) (ob : Option Obj) : Mem :=
  { m with objs := fun x => if x = o then ob else m.objs x }

/-- Writes a heap block, or frees it (src/recordbuf.hpp:76-101). -/
def Mem.setHeap (m : Mem) (a : Nat) (b : Option Block) : Mem :=
  { m with heap := fun x => if x = a then b else m.heap x }

/-! ## Reading through views -/

/-- The string members (src/recordbuf.hpp:106-107). -/
def Obj.str (ob : Obj) : Fld → SObj
  | .message => ob.message
  | .formatted => ob.formatted

/-- The views of the string members (src/recordbuf.hpp:79, 106-107). -/
def Obj.view (ob : Obj) : Fld → SV
  | .message => ob.messageView
  | .formatted => ob.formattedView

/-- The elements at a place (src/recordbuf.hpp:62-72). -/
def Mem.readPlace (m : Mem) : Place → Option (List (Str × Value))
  | .inObj o =>
    match m.objs o with
    | some ob =>
      match ob.vec with
      | .inline es => some es
      | .heap _ => none
    | none => none
  | .heap a =>
    match m.heap a with
    | some (.vec es) => some es
    | _ => none

/-- The characters at a location (src/recordbuf.hpp:52-60). -/
def Mem.readLoc (m : Mem) : Loc → Except UB Str
  | .inObj o f =>
    match m.objs o with
    | some ob =>
      match ob.str f with
      | .short s => .ok s
      | .long _ _ => .error .dangling
    | none => .error .dangling
  | .heap a =>
    match m.heap a with
    | some (.str s) => .ok s
    | _ => .error .dangling
  | .key p i =>
    match m.readPlace p with
    | some es =>
      match es[i]? with
      | some e => .ok e.1
      | none => .error .dangling
    | none => .error .dangling
  | .val p i =>
    match m.readPlace p with
    | some es =>
      match es[i]? with
      | some (_, .string s) => .ok s
      | _ => .error .dangling
    | _ => .error .dangling

/-- Reading all bytes of a view (src/recordbuf.hpp:52-60). -/
def Mem.readSV (m : Mem) (v : SV) : Except UB Str := do
  let s ← m.readLoc v.loc
  if v.len ≤ s.length then .ok (s.take v.len) else .error .dangling

/-- Reading the value of an attribute (src/recordbuf.hpp:180-182, the reader of the record). -/
def Mem.readVV (m : Mem) : VV → Except UB View
  | .null => .ok .null
  | .bool b => .ok (.bool b)
  | .sint v => .ok (.sint v)
  | .uint v => .ok (.uint v)
  | .double d => .ok (.double d)
  | .string v => do let s ← m.readSV v; .ok (.string s)
  | .function id => .ok (.function id)

/-- Reading all attributes of a list (src/recordbuf.hpp:180-182, the reader of the record). -/
def Mem.readList (m : Mem) : List (SV × VV) → Except UB AttrList
  | [] => .ok []
  | (k, v) :: rest => do
    let k ← m.readSV k
    let v ← m.readVV v
    let rest ← m.readList rest
    .ok ((k, v) :: rest)

/-- Dereferences a reference to an attribute list of object `o`, then reads it (src/recordbuf.hpp:129, 150, 169). -/
def Mem.readPack (m : Mem) : List Nat → Except UB Pack
  | [] => .ok []
  | o :: rest =>
    match m.objs o with
    | none => .error .dangling
    | some ob => do
      let l ← m.readList ob.attrView
      let rest ← m.readPack rest
      .ok (l :: rest)

/-- Dereferences a reference to a `string_view` member, then reads it (src/recordbuf.hpp:132-133, 153-154, 172-173).
-/
def Mem.readRef (m : Mem) (r : Nat × Fld) : Except UB Str :=
  match m.objs r.1 with
  | none => .error .dangling
  | some ob => m.readSV (ob.view r.2)

/-- `recordbuf_t::into_view` (src/recordbuf.hpp:180-182), followed by reading every part of the record
(src/record.cpp:36-74). Reading storage that was never written is `UB.nullDeref`. -/
def Mem.intoView (m : Mem) (o : Nat) : Except UB Rec :=
  match m.objs o with
  | none => .error .dangling
  | some ob =>
    match ob.inner with
    | none => .error .nullDeref
    | some inner => do
      let message ← m.readRef inner.message
      let formatted ← m.readRef inner.formatted
      match m.objs inner.attributes with
      | none => .error .dangling
      | some ob' =>
        let attributes ← m.readPack ob'.pack
        .ok { message := message, formatted := formatted, severity := inner.severity,
              timestamp := inner.timestamp, tid := inner.tid, attributes := attributes }

/-! ## The record to capture, with its strings in foreign storage -/

/-- A view of foreign storage (src/recordbuf.hpp:125-127). -/
structure FSV where
  at_ : Nat
  len : Nat

/-- A value of an attribute in a record made by the logger (src/recordbuf.hpp:193-205). -/
inductive FVV where
  | null
  | bool (b : Bool)
  | sint (v : BitVec 64)
  | uint (v : BitVec 64)
  | double (bits : BitVec 64)
  | string (s : FSV)
  | function (id : Nat)

/-- A `record_t` made by the logger (src/recordbuf.hpp:124-127): views of strings owned by others. -/
structure FRec where
  message : FSV
  formatted : FSV
  severity : Int
  timestamp : Int
  tid : Nat
  attributes : List (List (FSV × FVV))

/-- Reads a view of foreign storage `g` (src/recordbuf.hpp:125-126); `none` if the storage is gone. -/
def readF (g : Nat → Option Str) (v : FSV) : Option Str :=
  match g v.at_ with
  | some s => if v.len ≤ s.length then some (s.take v.len) else none
  | none => none

/-- Reads the value of an attribute (src/recordbuf.hpp:24-42, 200). -/
def readFV (g : Nat → Option Str) : FVV → Option View
  | .null => some .null
  | .bool b => some (.bool b)
  | .sint v => some (.sint v)
  | .uint v => some (.uint v)
  | .double d => some (.double d)
  | .string v => (readF g v).map .string
  | .function id => some (.function id)

/-- The contents of a record at this moment (src/recordbuf.hpp:124-137). -/
def FRec.contents (g : Nat → Option Str) (r : FRec) : Option Rec := do
  let message ← readF g r.message
  let formatted ← readF g r.formatted
  let attributes ← r.attributes.mapM fun l => l.mapM fun (k, v) => do
    let k ← readF g k
    let v ← readFV g v
    return (k, v)
  return { message := message, formatted := formatted, severity := r.severity, timestamp := r.timestamp,
           tid := r.tid, attributes := attributes }

/-! ## Construction and moves -/

/-- Copying a string (src/recordbuf.hpp:125-126, 199): `to_string()`, `std::string(const std::string&)`. -/
def Mem.newStr (m : Mem) (s : Str) : SObj × Mem :=
  if s.length ≤ m.lib.sso then (.short s, m)
  else (.long m.next s.length, { m.setHeap m.next (some (.str s)) with next := m.next + 1 })

/-- `view_of<std::string>::from` (src/recordbuf.hpp:53-60) for the string in field `f` of object `o`. -/
def viewOfStr (o : Nat) (f : Fld) : SObj → SV
  | .short s => { loc := .inObj o f, len := s.length }
  | .long a n => { loc := .heap a, len := n }

/-- One element of `view_of<attributes_t>::from`: a view of the key and `view_t(const value_t&)`
(src/attribute.cpp:21-32, 248-250). -/
def viewOfElem (p : Place) (i : Nat) (e : Str × Value) : SV × VV :=
  ({ loc := .key p i, len := e.1.length },
   match e.2 with
   | .null => .null
   | .bool b => .bool b
   | .sint v => .sint v
   | .uint v => .uint v
   | .double d => .double d
   | .string s => .string { loc := .val p i, len := s.length }
   | .function id => .function id)

/-- `view_of<attributes_t>::from` (src/recordbuf.hpp:62-72) for a vector with elements from index `i` on. -/
def viewOfElems (p : Place) : Nat → List (Str × Value) → List (SV × VV)
  | _, [] => []
  | i, e :: es => viewOfElem p i e :: viewOfElems p (i + 1) es

/-- The same for the container of object `o` (src/recordbuf.hpp:67-71). -/
def Mem.viewOfVec (m : Mem) (o : Nat) : VObj → List (SV × VV)
  | .inline es => viewOfElems (.inObj o) 0 es
  | .heap a =>
    match m.heap a with
    | some (.vec es) => viewOfElems (.heap a) 0 es
    | _ => []

/-- `recordbuf_t::flatten` (src/recordbuf.hpp:193-206); `eval` runs lazy attributes. -/
def flatten (eval : Nat → Str) (p : Pack) : List (Str × Value) :=
  p.flatten.map fun kv => (kv.1, Value.ofView eval kv.2)

/-- A container with these elements (src/recordbuf.hpp:193-205). -/
def Mem.newVec (m : Mem) (es : List (Str × Value)) : VObj × Mem :=
  if es.length ≤ m.lib.small then (.inline es, m)
  else (.heap m.next, { m.setHeap m.next (some (.vec es)) with next := m.next + 1 })

/-- `explicit recordbuf_t(const record_t&)` (src/recordbuf.hpp:121-137) at address `o`. -/
def Mem.construct (m : Mem) (o : Nat) (eval : Nat → Str) (r : Rec) : Mem :=
  let (message, m) := m.newStr r.message
  let (formatted, m) := m.newStr r.formatted
  let (vec, m) := m.newVec (flatten eval r.attributes)
  m.setObj o (some {
    message := message, messageView := viewOfStr o .message message,
    formatted := formatted, formattedView := viewOfStr o .formatted formatted,
    vec := vec, attrView := m.viewOfVec o vec,
    pack := [o],
    inner := some { message := (o, .message), formatted := (o, .formatted), severity := r.severity,
                    timestamp := r.timestamp, tid := r.tid, attributes := o } })

/-- `recordbuf_t()` (src/recordbuf.hpp:119). -/
def Mem.constructDefault (m : Mem) (o : Nat) : Mem :=
  m.setObj o (some {
    message := .short [], messageView := viewOfStr o .message (.short []),
    formatted := .short [], formattedView := viewOfStr o .formatted (.short []),
    vec := .inline [], attrView := [], pack := [], inner := none })

/-- Frees what a string owns (src/recordbuf.hpp:105-108, the implicit destructor). -/
def Mem.freeStr (m : Mem) : SObj → Mem
  | .short _ => m
  | .long a _ => m.setHeap a none

/-- Frees what a container owns (src/recordbuf.hpp:105-108, the implicit destructor). -/
def Mem.freeVec (m : Mem) : VObj → Mem
  | .inline _ => m
  | .heap a => m.setHeap a none

/-- An element after it was moved from (src/recordbuf.hpp:88, 95): its strings are empty. -/
def movedElem (e : Str × Value) : Str × Value :=
  ([], match e.2 with
    | .string _ => .string []
    | v => v)

/-- `std::string(std::string&&)` (src/recordbuf.hpp:88): the new string and what is left of the old one. -/
def SObj.moved : SObj → SObj × SObj
  | .short s => (.short s, .short [])
  | .long a n => (.long a n, .short [])

/-- The move constructor of the container (src/recordbuf.hpp:88): elements inside it are moved one by one, a heap
block is taken over. -/
def VObj.moved : VObj → VObj × VObj
  | .inline es => (.inline es, .inline (es.map movedElem))
  | .heap a => (.heap a, .inline [])

/-- `std::string::operator=(std::string&&)` (src/recordbuf.hpp:95): the two strings afterwards. -/
def Mem.assignStr (m : Mem) (dst src : SObj) : SObj × SObj × Mem :=
  match src, dst with
  | .short s, .long a _ =>
    if m.lib.reuse then (.long a s.length, .short [], m.setHeap a (some (.str s)))
    else (.short s, .short [], m.setHeap a none)
  | .short s, .short _ => (.short s, .short [], m)
  | .long b n, .long a _ =>
    if m.lib.swap then (.long b n, .long a 0, m.setHeap a (some (.str [])))
    else (.long b n, .short [], m.setHeap a none)
  | .long b n, .short _ => (.long b n, .short [], m)

/-- The move assignment of the container (src/recordbuf.hpp:95): elements inside the source are moved one by one, into
the block of the destination if that has one; a heap block is taken over. -/
def Mem.assignVec (m : Mem) (dst src : VObj) : VObj × VObj × Mem :=
  match src, dst with
  | .inline es, .heap a =>
    if m.lib.reuse then (.heap a, .inline (es.map movedElem), m.setHeap a (some (.vec es)))
    else (.inline es, .inline (es.map movedElem), m.setHeap a none)
  | .inline es, .inline _ => (.inline es, .inline (es.map movedElem), m)
  | .heap b, .heap a => (.heap b, .inline [], m.setHeap a none)
  | .heap b, .inline _ => (.heap b, .inline [], m)

/-- What is left of the pack of a moved-from object (src/recordbuf.hpp:146, 166). -/
def Mem.oldPack (m : Mem) (pack : List Nat) : List Nat := if m.lib.keepsPack then pack else []

/-- The members of the object at `o` after its strings and container are in place: the views are made anew
(`owned_pair(owned_pair&&)`, src/recordbuf.hpp:87-90, or `operator=`, 93-101), then lines 142-156 or 162-175. -/
def Mem.settled (m : Mem) (o : Nat) (message formatted : SObj) (vec : VObj) (inner : Inner) : Obj :=
  { message := message, messageView := viewOfStr o .message message,
    formatted := formatted, formattedView := viewOfStr o .formatted formatted,
    vec := vec, attrView := m.viewOfVec o vec,
    pack := [o],
    inner := some { inner with message := (o, .message), formatted := (o, .formatted), attributes := o } }

/-- `recordbuf_t(recordbuf_t&&)` (src/recordbuf.hpp:142-156). -/
def Mem.moveConstruct (m : Mem) (d s : Nat) : Except UB Mem :=
  match m.objs d, m.objs s with
  | none, some src =>
    -- BOOST_ASSERT(pack.size() == 1)
    match src.pack, src.inner with
    | [p], some inner =>
      let (message, message') := src.message.moved
      let (formatted, formatted') := src.formatted.moved
      let (vec, vec') := src.vec.moved
      let old := { src with message := message', formatted := formatted', vec := vec', pack := m.oldPack [p] }
      .ok ((m.setObj s (some old)).setObj d (some (m.settled d message formatted vec inner)))
    | _, _ => .error .assertion
  | _, _ => .error .dangling

/-- `operator=(recordbuf_t&&)` (src/recordbuf.hpp:160-178). -/
def Mem.moveAssign (m : Mem) (d s : Nat) : Except UB Mem :=
  match m.objs d, m.objs s with
  | some dst, some src =>
    if d = s then .ok m
    else
      match src.pack, src.inner with
      | [p], some inner =>
        let (message, message', m) := m.assignStr dst.message src.message
        let (formatted, formatted', m) := m.assignStr dst.formatted src.formatted
        let (vec, vec', m) := m.assignVec dst.vec src.vec
        -- 96 moves the views away from the source
        let old := { src with message := message', formatted := formatted', vec := vec', attrView := [],
                              pack := m.oldPack [p] }
        .ok ((m.setObj s (some old)).setObj d (some (m.settled d message formatted vec inner)))
      | _, _ => .error .assertion
  | _, _ => .error .dangling

/-- The implicit destructor (src/recordbuf.hpp:105-113). -/
def Mem.destroy (m : Mem) (o : Nat) : Except UB Mem :=
  match m.objs o with
  | some ob =>
    .ok ((((m.freeStr ob.message).freeStr ob.formatted).freeVec ob.vec).setObj o none)
  | none => .error .dangling

/-- What a program may do with buffers and with the storage records refer to (src/recordbuf.hpp:119-182). -/
inductive Op where
  /-- Constructs buffer `o` from a record; `eval` is what lazy attributes print at that moment. -/
  | capture (o : Nat) (eval : Nat → Str) (r : FRec)
  /-- Constructs buffer `o` from the record view of another buffer. -/
  | recapture (o src : Nat) (eval : Nat → Str)
  | default (o : Nat)
  | moveConstruct (d s : Nat)
  | moveAssign (d s : Nat)
  | destroy (o : Nat)
  /-- Foreign storage is changed (`some`) or freed (`none`). -/
  | foreign (a : Nat) (x : Option Str)

/-- One operation (src/recordbuf.hpp:119-182). -/
def Mem.step (m : Mem) : Op → Except UB Mem
  | .capture o eval r =>
    match m.objs o, r.contents m.foreign with
    | none, some c => .ok (m.construct o eval c)
    | _, _ => .error .dangling
  | .recapture o src eval =>
    match m.objs o with
    | none => do let r ← m.intoView src; .ok (m.construct o eval r)
    | some _ => .error .dangling
  | .default o =>
    match m.objs o with
    | none => .ok (m.constructDefault o)
    | some _ => .error .dangling
  | .moveConstruct d s => m.moveConstruct d s
  | .moveAssign d s => m.moveAssign d s
  | .destroy o => m.destroy o
  | .foreign a x => .ok { m with foreign := fun y => if y = a then x else m.foreign y }

/-- A program (src/recordbuf.hpp:119-182). -/
def Mem.run (m : Mem) : List Op → Except UB Mem
  | [] => .ok m
  | op :: ops => do let m ← m.step op; m.run ops

end Blackhole.RecordBuf
