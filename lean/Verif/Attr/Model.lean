import Verif.Base

/-!
# Attribute values and views

Models `attribute::value_t` and `attribute::view_t`
(include/blackhole/attribute.hpp:43-334, src/attribute.cpp).
-/

namespace Blackhole.Attr

/-- Alternatives of `value_t::types` and `view_t::types`
(include/blackhole/attribute.hpp:66-83, 180-211). -/
inductive Kind where
  | null | bool | sint64 | uint64 | double | string | function
  deriving DecidableEq, Repr

/-- `value_t::inner_t`, the owned variant (src/attribute.hpp:9-16).
Integers and doubles are their 64-bit patterns. A `std::function` is an identifier `id` whose effect on
a writer is given by an external evaluator (simplification: it only appends text). -/
inductive Value where
  | null
  | bool (b : Bool)
  | sint (v : BitVec 64)
  | uint (v : BitVec 64)
  | double (bits : BitVec 64)
  | string (s : Str)
  | function (id : Nat)
  deriving DecidableEq, Repr

/-- `view_t::inner_t`, the borrowed variant (src/attribute.hpp:18-25). A string view is modelled by its
contents here; lifetimes are treated in `RecordBuf`. -/
inductive View where
  | null
  | bool (b : Bool)
  | sint (v : BitVec 64)
  | uint (v : BitVec 64)
  | double (bits : BitVec 64)
  | string (s : Str)
  | function (id : Nat)
  deriving DecidableEq, Repr

/-- Which built-in C++ integer type a constructor takes (LP64 (include/blackhole/attribute.hpp:120-132): `long` is 64
bits wide, `char` is signed, as on x86-64 Linux). -/
inductive CInt where
  | char (v : BitVec 8) | short (v : BitVec 16) | int (v : BitVec 32) | long (v : BitVec 64)
  | longlong (v : BitVec 64)
  | uchar (v : BitVec 8) | ushort (v : BitVec 16) | uint (v : BitVec 32) | ulong (v : BitVec 64)
  | ulonglong (v : BitVec 64)
  deriving DecidableEq, Repr

/-- `value_t(char)` ... `value_t(unsigned long long)` (src/attribute.cpp:65-103):
`static_cast<std::int64_t>` sign-extends, `static_cast<std::uint64_t>` of an unsigned type zero-extends. -/
def Value.ofCInt : CInt → Value
  | .char v => .sint (v.signExtend 64)
  | .short v => .sint (v.signExtend 64)
  | .int v => .sint (v.signExtend 64)
  | .long v => .sint v
  | .longlong v => .sint v
  | .uchar v => .uint (v.setWidth 64)
  | .ushort v => .uint (v.setWidth 64)
  | .uint v => .uint (v.setWidth 64)
  | .ulong v => .uint v
  | .ulonglong v => .uint v

/-- `view_t(char)` ... `view_t(unsigned long long)` (src/attribute.cpp:192-230). -/
def View.ofCInt : CInt → View
  | .char v => .sint (v.signExtend 64)
  | .short v => .sint (v.signExtend 64)
  | .int v => .sint (v.signExtend 64)
  | .long v => .sint v
  | .longlong v => .sint v
  | .uchar v => .uint (v.setWidth 64)
  | .ushort v => .uint (v.setWidth 64)
  | .uint v => .uint (v.setWidth 64)
  | .ulong v => .uint v
  | .ulonglong v => .uint v

/-- `into_view` and `view_t(const value_t&)` (src/attribute.cpp:21-32, 248-250). A function value is
viewed through its address, which identifies it. -/
def View.ofValue : Value → View
  | .null => .null
  | .bool b => .bool b
  | .sint v => .sint v
  | .uint v => .uint v
  | .double d => .double d
  | .string s => .string s
  | .function id => .function id

/-- `into_owned_t` (src/recordbuf.hpp:24-42): strings are copied, functions are evaluated into a fresh
writer (`eval` is that evaluation at the time of the call) and become strings. -/
def Value.ofView (eval : Nat → Str) : View → Value
  | .null => .null
  | .bool b => .bool b
  | .sint v => .sint v
  | .uint v => .uint v
  | .double d => .double d
  | .string s => .string s
  | .function id => .string (eval id)

/-- The result type `T` of `get<T>` and its value (src/attribute.cpp:158-176, 273-290). -/
inductive Got where
  | null
  | bool (b : Bool)
  | sint64 (v : BitVec 64)
  | uint64 (v : BitVec 64)
  | double (bits : BitVec 64)
  | string (s : Str)
  | function (id : Nat)
  deriving DecidableEq, Repr

/-- `std::bad_cast` (src/attribute.cpp:158-167). -/
inductive BadCast where
  | badCast
  deriving DecidableEq, Repr

/-- `get<T>(const value_t&)` (src/attribute.cpp:158-167): `boost::get<T>(&variant)` is null unless the
active alternative is exactly `T`. (`get<function_type>` of a `value_t` is declared by the template but
not instantiated, src/attribute.cpp:171-176; it is included here for uniformity.) -/
def Value.get : Kind → Value → Except BadCast Got
  | .null, .null => .ok .null
  | .bool, .bool b => .ok (.bool b)
  | .sint64, .sint v => .ok (.sint64 v)
  | .uint64, .uint v => .ok (.uint64 v)
  | .double, .double d => .ok (.double d)
  | .string, .string s => .ok (.string s)
  | .function, .function id => .ok (.function id)
  | _, _ => .error .badCast

/-- `get<T>(const view_t&)` (src/attribute.cpp:273-282). -/
def View.get : Kind → View → Except BadCast Got
  | .null, .null => .ok .null
  | .bool, .bool b => .ok (.bool b)
  | .sint64, .sint v => .ok (.sint64 v)
  | .uint64, .uint v => .ok (.uint64 v)
  | .double, .double d => .ok (.double d)
  | .string, .string s => .ok (.string s)
  | .function, .function id => .ok (.function id)
  | _, _ => .error .badCast

/-- `view_t::operator==` (src/attribute.cpp:252-254, include/blackhole/attribute.hpp:196-199):
`boost::variant` equality requires the same alternative and equal contents. Function views compare by
address. Simplification: doubles are compared by IEEE equality in C++; `feq` stands for it. -/
def View.beq (feq : BitVec 64 → BitVec 64 → Bool) : View → View → Bool
  | .null, .null => true
  | .bool a, .bool b => a == b
  | .sint a, .sint b => a == b
  | .uint a, .uint b => a == b
  | .double a, .double b => feq a b
  | .string a, .string b => a == b
  | .function a, .function b => a == b
  | _, _ => false

end Blackhole.Attr

namespace Blackhole

/-- `attribute_list`: key views with value views (include/blackhole/attributes.hpp:41-65). -/
abbrev AttrList := List (Str × Attr.View)

/-- `attributes_t`: owned keys and values (include/blackhole/attributes.hpp:33-39). -/
abbrev Attrs := List (Str × Attr.Value)

/-- `attribute_pack`: references to attribute lists (include/blackhole/attributes.hpp:67-71), modelled by
the lists referred to. -/
abbrev Pack := List AttrList

/-- `transform` in src/scope/holder.cpp:10-17, the loop of `wrapper_t::wrapper_t` (src/wrapper.cpp:8-16) and
`view_of<attributes_t>::from` (src/recordbuf.hpp:67-71): one view per attribute, in order. -/
def viewsOf : Attrs → AttrList
  | [] => []
  | (k, v) :: rest => (k, Attr.View.ofValue v) :: viewsOf rest

end Blackhole
