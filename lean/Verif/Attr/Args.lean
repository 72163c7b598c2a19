import Verif.Attr.Props

/-!
# What can be written as the value of an attribute

`attribute_list{{"key", x}}` and `attributes_t{{"key", x}}` construct a `view_t` or a `value_t` from `x`. Which constructor is
used is decided by overload resolution; here are the types of `x`, the constructors and the rules.
-/

namespace Blackhole.Attr

/-- Arguments of the constructors of include/blackhole/attribute.hpp:111-143, 236-284 by type and value. A C string is given by the characters up to the end of the memory it is in; reading stops
at the first NUL. -/
inductive Arg where
  | nullptr
  | bool (b : Bool)
  | cint (c : CInt)
  | schar (v : BitVec 8)
  /-- Also an unscoped enumeration with `int` values. -/
  | wchar (v : BitVec 32)
  /-- By the bits of the same number as a `double`. -/
  | float (bits : BitVec 64)
  | double (bits : BitVec 64)
  | longDouble
  /-- A string literal or a variable `char x[N]`, with all its `N > 0` characters. -/
  | array (cs : List Char)
  /-- `const char*` or `char*`, possibly null. -/
  | pointer (cs : Option (List Char))
  /-- A function, or a lambda that captures nothing. -/
  | callable
  /-- `std::function`, or a lambda that captures something. -/
  | closure
  | string (s : Str)
  | view (s : Str)
  deriving DecidableEq, Repr

/-- The built-in integer types (include/blackhole/attribute.hpp:120-132). -/
inductive IntType where
  | char | short | int | long | longlong | uchar | ushort | uint | ulong | ulonglong
  deriving DecidableEq, Repr

/-- Parameters of constructors (include/blackhole/attribute.hpp:115-143, 240-274). -/
inductive Param where
  | nullptr | bool | int (t : IntType) | float | double | array | string | view
  deriving DecidableEq, Repr

/-- The constructors for integers (include/blackhole/attribute.hpp:120-132, 245-257). -/
def intParams : List Param :=
  [.int .char, .int .short, .int .int, .int .long, .int .longlong, .int .uchar, .int .ushort, .int .uint, .int .ulong,
    .int .ulonglong]

/-- The constructors of `value_t` (include/blackhole/attribute.hpp:115-143). -/
def valueParams : List Param := .nullptr :: .bool :: intParams ++ [.double, .array, .string]

/-- The constructors of `view_t` (include/blackhole/attribute.hpp:240-274); the one from `value_t` is treated by
`View.ofValue`, the one for types with `display_traits` by `View.function`. -/
def viewParams : List Param := .nullptr :: .bool :: intParams ++ [.float, .double, .array, .view, .string]

/-- The type of an integer (include/blackhole/attribute.hpp:120-132). -/
def CInt.type : CInt → IntType
  | .char _ => .char | .short _ => .short | .int _ => .int | .long _ => .long | .longlong _ => .longlong
  | .uchar _ => .uchar | .ushort _ => .ushort | .uint _ => .uint | .ulong _ => .ulong | .ulonglong _ => .ulonglong

/-- Parameters of arithmetic types (include/blackhole/attribute.hpp:118-134, 243-261). -/
def Param.arithmetic : Param → Bool
  | .bool | .int _ | .float | .double => true
  | _ => false

/-- The C++ rules ([over.ics.rank]) as far as the constructors of include/blackhole/attribute.hpp:115-143, 240-274 need
them: 0 exact match, 1 promotion, 2 other standard conversion, 3 user-defined
conversion; `none` if there is no implicit conversion. Conversions of a pointer to `bool` are standard conversions; there is
none from `std::function`, whose conversion is `explicit`; `const char*` to `std::string` is user-defined, as is a lambda to
a pointer. -/
def rank : Arg → Param → Option Nat
  | .nullptr, .nullptr => some 0
  | .nullptr, .string => some 3
  | .nullptr, _ => none
  | .bool _, .bool => some 0
  | .bool _, .int .int => some 1
  | .bool _, p => if p.arithmetic then some 2 else none
  | .cint c, .int t => if c.type = t then some 0 else if t = .int ∧ c.type ∈ [.char, .short, .uchar, .ushort] then some 1 else some 2
  | .cint _, p => if p.arithmetic then some 2 else none
  | .schar _, .int .int => some 1
  | .schar _, p => if p.arithmetic then some 2 else none
  | .wchar _, .int .int => some 1
  | .wchar _, p => if p.arithmetic then some 2 else none
  | .float _, .float => some 0
  | .float _, .double => some 1
  | .float _, p => if p.arithmetic then some 2 else none
  | .double _, .double => some 0
  | .double _, p => if p.arithmetic then some 2 else none
  | .longDouble, p => if p.arithmetic then some 2 else none
  | .array _, .array => some 0
  | .array _, .bool => some 2
  | .array _, .string | .array _, .view => some 3
  | .array _, _ => none
  | .pointer _, .bool => some 2
  | .pointer _, .string => some 3
  | .pointer _, _ => none
  | .callable, .bool => some 3
  | .callable, _ => none
  | .closure, _ => none
  | .string _, .string => some 0
  | .string _, .view => some 3
  | .string _, _ => none
  | .view _, .view => some 0
  | .view _, _ => none

/-- The best one of the constructors (include/blackhole/attribute.hpp:115-143, 240-274), if it is better than all others; the
call does not compile otherwise. -/
def choose (ps : List Param) (a : Arg) : Option Param :=
  ps.find? (fun p => match rank a p with
    | none => false
    | some r => ps.all (fun q => q = p || match rank a q with
      | none => true
      | some r' => r < r'))

/-- The character values of `char` and `short` as `int` and so on: an integer argument for the parameter that was chosen;
only those that are chosen are given (the others are not used and yield the first) (src/attribute.cpp:73-75, 200-202). -/
def toInt32 : Arg → BitVec 32
  | .schar v => v.signExtend 32
  | .wchar v => v
  | _ => 0

/-- What the constructor makes of the argument (src/attribute.cpp:53-107, 180-246; for arrays
include/blackhole/attribute.hpp:141, 268: all characters but the last). -/
def construct : Param → Arg → Option Value
  | .nullptr, _ => some .null
  | .bool, .bool b => some (.bool b)
  | .bool, .pointer p => some (.bool p.isSome)
  | .bool, .callable => some (.bool true)
  | .int _, .cint c => some (Value.ofCInt c)
  | .int .int, a => some (Value.ofCInt (.int (toInt32 a)))
  | .float, .float d => some (.double d)
  | .double, .float d => some (.double d)
  | .double, .double d => some (.double d)
  | .array, .array cs => some (.string cs.dropLast)
  | .string, .string s => some (.string s)
  | .view, .view s => some (.string s)
  | _, _ => none

/-- `value_t(x)`, if it compiles (include/blackhole/attribute.hpp:115-143). -/
def Value.ofArg (a : Arg) : Option Value := (choose valueParams a).bind (fun p => construct p a)

/-- `view_t(x)`, if it compiles (include/blackhole/attribute.hpp:240-274). -/
def View.ofArg (a : Arg) : Option View := ((choose viewParams a).bind (fun p => construct p a)).map View.ofValue

end Blackhole.Attr
