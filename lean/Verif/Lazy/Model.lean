import Verif.Tskv.Model
import Verif.Json.Model

/-! # Functions of lazy attributes

The value of an attribute can be a function that gets a writer (include/blackhole/attribute.hpp:77, 191-203). In the other areas
such a function is the text that it appends. Here it is what it is: it may have a state, share it with others, see what is in the
writer and replace it, and throw at any time. The formatters, and the buffer that records are copied to for
asynchronous sinks, are modelled again with such functions; every call of a function is noted.

Simplification: the nested loops over lists of attributes are loops over all attributes. What is left in a writer when an exception
is thrown is not kept, since every writer is dropped then. -/

namespace Blackhole.Lazy

open Rec Pattern

/-- `attribute::view_t::inner_t` (src/attribute.hpp:18-25); functions have numbers. -/
inductive LValue where
  | null
  | bool (b : Bool)
  | sint (z : Int)
  | uint (n : Nat)
  | double (bits : Nat)
  | string (v : View)
  | function (id : Nat)

/-- The attributes of a record (include/blackhole/attributes.hpp:71-76). -/
abbrev LPack := List (List (View × LValue))

/-- What a formatter reads from a record (include/blackhole/record.hpp:44-53). -/
structure LRecord where
  message : View
  severity : Int
  timestamp : Int
  tid : Nat
  pack : LPack

/-- The functions (include/blackhole/attribute.hpp:191-203): for a number, a state of the program and the contents of the writer,
the new state, the exception if one is thrown, and the new contents. -/
abbrev Fns (σ : Type) := Nat → σ → Str → σ × Option Nat × Str

/-- The state of the program and the calls of functions so far, each with the contents of the writer that it got
(include/blackhole/attribute.hpp:191-203). -/
structure S (σ : Type) where
  world : σ
  calls : List (Nat × Str)

/-- Something that is done with a writer (include/blackhole/extensions/writer.hpp:10-35): from its contents before to those
after. -/
abbrev Act (σ : Type) := S σ → Str → S σ × Except Exc Str

/-- Something is appended (include/blackhole/extensions/writer.hpp:17-20). -/
def emit {σ : Type} (r : Except Exc Str) : Act σ := fun s w =>
  match r with
  | .error e => (s, .error e)
  | .ok t => (s, .ok (w ++ t))

/-- A function is called with the writer (src/formatter/string.cpp:88-90, src/formatter/tskv.cpp:50-52,
src/formatter/json.cpp:69-71, 102-104, src/recordbuf.hpp:37-41). -/
def call {σ : Type} (fns : Fns σ) (id : Nat) : Act σ := fun s w =>
  match fns id s.world w with
  | (world, some k, _) => (⟨world, s.calls ++ [(id, w)]⟩, .error (.user k))
  | (world, none, w') => (⟨world, s.calls ++ [(id, w)]⟩, .ok w')

/-- One after the other (src/formatter/string.cpp:332-338); an exception ends it. -/
def seq {σ : Type} : List (Act σ) → Act σ
  | [], s, w => (s, .ok w)
  | a :: as, s, w =>
    match a s w with
    | (s, .error e) => (s, .error e)
    | (s, .ok w) => seq as s w

/-- With a writer of its own, whose text is used afterwards (src/formatter/string.cpp:273-282, src/formatter/tskv.cpp:114-116). -/
def inside {σ : Type} (a : Act σ) (use : Str → Except Exc Str) : Act σ := fun s w =>
  match a s [] with
  | (s, .error e) => (s, .error e)
  | (s, .ok t) => emit (use t) s w

/-- `view_visitor<spec>` (src/formatter/string.cpp:64-91), the same as in src/formatter/tskv.cpp:27-53 and
src/formatter/json.cpp:79-105. -/
def writeValue {σ : Type} (fns : Fns σ) (env : Env) (spec : Str) : LValue → Act σ
  | .null => emit (env.write spec (.cstr (ch! "none")))
  | .bool b => emit (env.write spec (.bool b))
  | .sint z => emit (env.write spec (.long z))
  | .uint n => emit (env.write spec (.ulong n))
  | .double bits => emit (env.write spec (.double bits))
  | .string v => emit (env.write spec v.data)
  | .function id => call fns id

/-! ## The string formatter -/

/-- `pattern_visitor_t` (src/formatter/string.cpp:109-132). -/
def writeItem {σ : Type} (fns : Fns σ) (env : Env) (a : View × LValue) : Item → Act σ
  | .literal s => emit (.ok s)
  | .name spec => emit (env.write (ch! "{:" ++ spec ++ ch! "}") a.1.ref)
  | .value spec => writeValue fns env (ch! "{:" ++ spec ++ ch! "}") a.2

/-- The loops of `evaluator_t::eval` (src/formatter/string.cpp:142-159). -/
def leftover {σ : Type} (fns : Fns σ) (env : Env) (l : Leftover) : List (View × LValue) → Bool → List (Act σ)
  | [], _ => []
  | a :: as, first =>
    emit (.ok (if first then [] else l.separator)) :: seq (l.items.map (writeItem fns env a)) :: leftover fns env l as false

/-- `find` (src/formatter/string.cpp:286-296). -/
def find (name : Str) : List (View × LValue) → Option LValue
  | [] => none
  | a :: as => if a.1.text = name then some a.2 else find name as

/-- The record without its attributes (include/blackhole/record.hpp:44-53). -/
def LRecord.bare (r : LRecord) : Record := ⟨r.message, r.severity, r.timestamp, r.tid, []⟩

/-- `visitor_t` (src/formatter/string.cpp:167-283). -/
def render {σ : Type} (fns : Fns σ) (env : Env) (clock : StringFmt.Clock) (sevmap : StringFmt.SevMap) (r : LRecord) :
    Token → Act σ
  | .required name spec =>
    match find name r.pack.flatten with
    | some v => writeValue fns env spec v
    | none => emit (.error (.logic (ch! "required attribute '" ++ name ++ ch! "' not found")))
  | .optional name spec otherwise =>
    match find name r.pack.flatten with
    | some v => writeValue fns env spec v
    | none => emit (StringFmt.writeOtherwise env spec otherwise)
  | .leftover l =>
    inside (seq (leftover fns env l r.pack.flatten true)) fun t => if t = [] then .ok [] else env.write l.spec (.str t [])
  | token => emit (StringFmt.render env clock sevmap r.bare token)

/-- `string_t::format` (src/formatter/string.cpp:332-338). -/
def stringFormat {σ : Type} (fns : Fns σ) (env : Env) (clock : StringFmt.Clock) (f : StringFmt.Formatter) (r : LRecord) : Act σ :=
  seq (f.tokens.map (render fns env clock f.sevmap r))

/-! ## The TSKV formatter -/

/-- One attribute of `add_attributes` (src/formatter/tskv.cpp:111-119): its text is made first, also if it is removed. -/
def addAttribute {σ : Type} (fns : Fns σ) (env : Env) (data : Tskv.Data) (a : View × LValue) : Act σ :=
  inside (writeValue fns env (ch! "{}") a.2) fun t => .ok (Tskv.addView data a.1.text t)

/-- `tskv_t::format` (src/formatter/tskv.cpp:245-258). -/
def tskvFormat {σ : Type} (fns : Fns σ) (env : Env) (clock : StringFmt.Clock) (data : Tskv.Data) (r : LRecord) : Act σ :=
  seq ([emit (.ok (ch! "tskv"))]
    ++ data.constants.map (fun kv => emit (Tskv.addConstant env data kv))
    ++ data.timestamps.map (fun kv => emit (Tskv.addTimestamp clock data r.bare kv))
    ++ [emit (Tskv.addArg env data (ch! "severity") (.int r.severity))]
    ++ [emit (Tskv.addArg env data (ch! "pid") (.ulong env.pid))]
    ++ [emit (env.write (ch! "\ttid={:#x}") (.ulong r.tid))]
    ++ [emit (.ok (Tskv.addView data (ch! "message") r.message.text))]
    ++ r.pack.flatten.map (addAttribute fns env data))

/-! ## The JSON formatter -/

/-- The attributes that are visited when names must be unique (src/formatter/json.cpp:276-287). -/
def uniques (seen : List Str) : List (View × LValue) → List (View × LValue)
  | [] => []
  | a :: as => if a.1.text ∈ seen then uniques seen as else a :: uniques (a.1.text :: seen) as

/-- `attributes` (src/formatter/json.cpp:275-297), which are visited. -/
def visited (d : Json.Data) (pack : LPack) : List (View × LValue) :=
  if d.unique then uniques [] pack.flatten else pack.flatten

/-- `visitor_t` on the value of an attribute (src/formatter/json.cpp:43-76). -/
def valueLeaf {σ : Type} (fns : Fns σ) : LValue → S σ → S σ × Except Exc Json.Leaf
  | .null, s => (s, .ok .null)
  | .bool b, s => (s, .ok (.bool b))
  | .sint z, s => (s, .ok (.int z))
  | .uint n, s => (s, .ok (.int n))
  | .double bits, s => (s, .ok (.double bits))
  | .string v, s => (s, .ok (.str v.text))
  | .function id, s => ((call fns id s []).1, (call fns id s []).2.map .str)

/-- `apply` of an attribute, the value (src/formatter/json.cpp:329-341). -/
def applyValue {σ : Type} (fns : Fns σ) (env : Env) (d : Json.Data) (a : View × LValue) (s : S σ) : S σ × Except Exc Json.Leaf :=
  match Tskv.lookup a.1.text d.formatting with
  | some spec => ((writeValue fns env spec a.2 s []).1, (writeValue fns env spec a.2 s []).2.map .str)
  | none => valueLeaf fns a.2 s

/-- The calls of `apply` for attributes, one after the other (src/formatter/json.cpp:275-297, 329-341). An invalid pointer is found
before the value is looked at; what else can be undefined in the tree comes here after it. -/
def placeAll {σ : Type} (fns : Fns σ) (env : Env) (d : Json.Data) :
    List (View × LValue) → S σ → Json.Tree → S σ × Except Exc Json.Tree
  | [], s, t => (s, .ok t)
  | a :: as, s, t =>
    match Json.parsePointer (d.pointer a.1.text) with
    | none => (s, .error (.ub .assertion))
    | some _ =>
      match applyValue fns env d a s with
      | (s, leaf) =>
        match Json.place d t a.1.text leaf with
        | .error e => (s, .error e)
        | .ok t => placeAll fns env d as s t

/-- `json_t::format` (src/formatter/json.cpp:367-399). -/
def jsonFormat {σ : Type} (fns : Fns σ) (env : Env) (clock : StringFmt.Clock) (dtoa : Nat → Str) (d : Json.Data) (r : LRecord) :
    Act σ := fun s w =>
  match Json.placeAll d (.obj []) (Json.fields env clock d r.bare) with
  | .error e => (s, .error e)
  | .ok t =>
    match placeAll fns env d (visited d r.pack) s t with
    | (s, .error e) => (s, .error e)
    | (s, .ok t) => (s, .ok (w ++ Json.write dtoa t ++ if d.newline then ['\n'] else []))

/-! ## Records in queues -/

/-- `into_owned_t` (src/recordbuf.hpp:24-42): what a record in the queue of an asynchronous sink has instead of a value. -/
def intoOwned {σ : Type} (fns : Fns σ) : LValue → S σ → S σ × Except Exc LValue
  | .function id, s => ((call fns id s []).1, (call fns id s []).2.map fun t => .string (.at t []))
  | v, s => (s, .ok v)

/-- The loops of the constructor of `recordbuf_t` (src/recordbuf.hpp:193-206). -/
def intoOwnedAll {σ : Type} (fns : Fns σ) : List (View × LValue) → S σ → S σ × Except Exc (List (View × LValue))
  | [], s => (s, .ok [])
  | a :: as, s =>
    match intoOwned fns a.2 s with
    | (s, .error e) => (s, .error e)
    | (s, .ok v) =>
      match intoOwnedAll fns as s with
      | (s, .error e) => (s, .error e)
      | (s, .ok vs) => (s, .ok ((a.1, v) :: vs))

end Blackhole.Lazy
