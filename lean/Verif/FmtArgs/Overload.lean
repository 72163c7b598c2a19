import Verif.FmtArgs.Model

/-!
# Which overload an argument selects (include/blackhole/extensions/format.hpp:971-1123)

An argument of a message is turned into a value by a constructor of `MakeValue<char>`, and the type under which it is
read later is computed by a function `MakeValue<char>::type` with overloads of its own. Which ones are used is decided
by overload resolution, separately for the two: here are the types of arguments, the overloads and the rules of C++ as far
as they matter here. An argument of type `T` arrives as a `const T` (`const Args&...`,
include/blackhole/extensions/format.hpp:1726-1740).
-/

namespace Blackhole.FmtArgs.Overload

/-- The arithmetic types of C++, and the 128 bit integers of gcc and clang
(include/blackhole/extensions/format.hpp:1027-1057 names those with overloads). -/
inductive Arith where
  | bool | char | schar | uchar | wchar | char16 | char32
  | short | ushort | int | uint | long | ulong | llong | ullong | int128 | uint128
  | float | double | longDouble
  deriving DecidableEq, Repr

/-- Classes that overloads name (include/blackhole/extensions/format.hpp:999-1001, 1069-1071, 1088-1089). -/
inductive Lib where
  | string | wstring | stringRef | wstringRef | cstringRef
  deriving DecidableEq, Repr

/-- What is known of a class of the user (include/blackhole/extensions/format.hpp:928-941, 1094-1107): the named class that
it is derived from, the arithmetic type that it converts to without a cast, and whether it has `operator<<`. -/
structure Cls where
  base : Option Lib := none
  toNumber : Option Arith := none
  printable : Bool := false
  deriving DecidableEq, Repr

/-- Types (include/blackhole/extensions/format.hpp:978-1123, what `T` may be). `pointer const volatile t`: a pointer to `t`
with these qualifiers; `array` likewise. An enumeration is given with whether it is an `enum class`, whether the user
has written `operator<<` for it, and with its underlying type. -/
inductive Ty where
  | arith (a : Arith)
  | void
  | nullptr
  | pointer (const volatile : Bool) (to : Ty)
  | array (const volatile : Bool) (elem : Ty) (n : Nat)
  | function
  /-- A pointer to a member. -/
  | member
  | enum (isClass printable : Bool) (underlying : Arith)
  | lib (l : Lib)
  | cls (c : Cls)
  /-- The result of `fmt::arg`. -/
  | named
  deriving DecidableEq, Repr

/-- `Arg::Type` (include/blackhole/extensions/format.hpp:892-900). -/
inductive Kind where
  | named | int | uint | longLong | ulongLong | bool | char | double | longDouble | cstring | string | wstring | pointer
  | custom
  deriving DecidableEq, Repr

/-- The numbers of the types (include/blackhole/extensions/format.hpp:892-900). -/
def Kind.code : Kind → Nat
  | .named => 1 | .int => 2 | .uint => 3 | .longLong => 4 | .ulongLong => 5 | .bool => 6 | .char => 7 | .double => 8
  | .longDouble => 9 | .cstring => 10 | .string => 11 | .wstring => 12 | .pointer => 13 | .custom => 14

/-- The members of the union `Value` (include/blackhole/extensions/format.hpp:868-890). `string.value`, `sstring.value` and
`ustring.value` are one here: pointers to characters of three kinds with the same representation. -/
inductive Member where
  | intValue | uintValue | longLongValue | ulongLongValue | doubleValue | longDoubleValue | pointer | cstring | string
  | wstring | custom
  deriving DecidableEq, Repr

/-- Parameters of the overloads (include/blackhole/extensions/format.hpp:971-1123): of a type, by value or by `const&`;
`Null<T>`, which nothing converts to; and those of the templates `const T*`, `T*`, `const T&` (two constructors, for types
that convert to an integer and for others) and `const NamedArg<Char>&`. -/
inductive Param where
  | type (t : Ty)
  | null
  | constPtr
  | ptr
  | convertible
  | other
  | anyRef
  | namedArg
  deriving DecidableEq, Repr

/-- Conversion to an integer without a cast (include/blackhole/extensions/format.hpp:928-954, `IsConvertibleToInt`): the arithmetic types, enumerations that are not an
`enum class`, and classes that convert to an arithmetic type. -/
def Ty.convertible : Ty → Bool
  | .arith _ => true
  | .enum isClass _ _ => !isClass
  | .cls c => c.toNumber.isSome
  | _ => false

/-- Array to pointer and function to pointer (include/blackhole/extensions/format.hpp:978-981, what the parameters
`const T*` and `T*` see). The elements of an array are `const`, since the array arrives as one. -/
def Ty.decay : Ty → Ty
  | .array _ v e _ => .pointer true v e
  | .function => .pointer false false .function
  | t => t

/-- [conv.prom] for the types of include/blackhole/extensions/format.hpp:1027-1057 where `wchar_t` is a signed type of 32 bits. -/
def Arith.promotes : Arith → Arith → Bool
  | .bool, .int | .char, .int | .schar, .int | .uchar, .int | .short, .int | .ushort, .int => true
  | .wchar, .int | .char16, .int | .char32, .uint => true
  | .float, .double => true
  | _, _ => false

/-- Conversions that are made by a constructor (include/blackhole/extensions/format.hpp:296-310, 384-390, and those of
`std::string`): from a pointer to characters, and between the classes of strings. -/
def toLib : Ty → Lib → Bool
  | .pointer _ v (.arith .char), .string | .pointer _ v (.arith .char), .stringRef
  | .pointer _ v (.arith .char), .cstringRef => !v
  | .pointer _ v (.arith .wchar), .wstring | .pointer _ v (.arith .wchar), .wstringRef => !v
  | .nullptr, _ => true
  | .lib .string, .stringRef | .lib .string, .cstringRef | .lib .wstring, .wstringRef => true
  | .cls c, .stringRef | .cls c, .cstringRef => c.base = some .string
  | .cls c, .wstringRef => c.base = some .wstring
  | _, _ => false

/-- How well an argument fits a parameter of a type ([over.ics.rank], for the parameters of
include/blackhole/extensions/format.hpp:992-1092): 0 the same type, 1 the same with more qualifiers, 2 promotion, 3 other
standard conversion, 4 conversion by a constructor or a conversion function. -/
def rank : Ty → Ty → Option Nat
  | .arith a, .arith b => if a = b then some 0 else if a.promotes b then some 2 else some 3
  | .enum isClass _ u, .arith b =>
    if isClass then none else if u = b || u.promotes b then some 2 else some 3
  | .pointer c v t, .pointer c' v' t' =>
    if (c && !c') || (v && !v') then none
    else if t = t' then (if c = c' && v = v' then some 0 else some 1)
    else if t' = .void && t ≠ .function then some 3
    else none
  | .pointer _ _ _, .arith b => if b = .bool then some 3 else none
  | .member, .arith b => if b = .bool then some 3 else none
  | .nullptr, .pointer _ _ _ => some 3
  | .lib l, .lib l' => if l = l' then some 0 else if toLib (.lib l) l' then some 4 else none
  | .cls c, .arith _ => if c.toNumber.isSome then some 4 else none
  | .cls c, .lib l => if c.base = some l then some 3 else if toLib (.cls c) l then some 4 else none
  | t, .lib l => if toLib t l then some 4 else none
  | _, _ => none

/-- How well an argument fits a parameter, and the order of functions that fit equally well ([over.match.best]): first
functions that are no templates, then the templates, the more special ones first
(include/blackhole/extensions/format.hpp:978-981, 1094-1119). `const T*` needs a qualifier if the argument is a pointer to
something that is not `const`, and does not accept pointers to functions. -/
def fit (t : Ty) : Param → Option (Nat × Nat)
  | .type p => (rank t.decay p).map fun r => (r, 0)
  | .null => none
  | .constPtr =>
    match t.decay with
    | .pointer c _ to => if to = .function then none else some (if c then 0 else 1, 1)
    | _ => none
  | .ptr =>
    match t.decay with
    | .pointer _ _ _ => some (0, 2)
    | _ => none
  | .convertible => if t.convertible then some (0, 3) else none
  | .other => if t.convertible then none else some (0, 3)
  | .anyRef => some (0, 3)
  | .namedArg => if t = .named then some (0, 1) else none

/-- First the fit, then the order ([over.match.best]; include/blackhole/extensions/format.hpp:971-1123 has one argument
per call). -/
def better (x y : Nat × Nat) : Bool := x.1 < y.1 || (x.1 = y.1 && x.2 < y.2)

/-- Overload resolution among functions that are given by their number and parameter: the one that fits better than all
others ([over.match.best]; include/blackhole/extensions/format.hpp:1681, 1729, the calls). -/
def resolve (cs : List Param) (t : Ty) : Option Param :=
  cs.find? fun p => match fit t p with
    | none => false
    | some x => cs.all fun q => q = p || match fit t q with
      | none => true
      | some y => better x y

/-- The constructors that are private, for `Char = char` (include/blackhole/extensions/format.hpp:972-990): they take part
in overload resolution, and a call that selects one of them does not compile. -/
def privates : List Param :=
  [.constPtr, .ptr, .type (.arith .wchar), .type (.pointer false false (.arith .wchar)),
    .type (.pointer true false (.arith .wchar)), .type (.lib .wstring), .type (.lib .wstringRef)]

/-- The types with a constructor and a function `type` of their own, written by the macros of
include/blackhole/extensions/format.hpp:1020-1057, 1066-1092. -/
def both : List Param :=
  [.type (.arith .bool), .type (.arith .short), .type (.arith .ushort), .type (.arith .int), .type (.arith .uint),
    .type (.arith .long), .type (.arith .ulong), .type (.arith .llong), .type (.arith .ullong), .type (.arith .float),
    .type (.arith .double), .type (.arith .longDouble), .type (.arith .schar), .type (.arith .uchar),
    .type (.arith .char), .type (.pointer false false (.arith .char)), .type (.pointer true false (.arith .char)),
    .type (.pointer true false (.arith .schar)), .type (.pointer true false (.arith .uchar)), .type (.lib .string),
    .type (.lib .stringRef), .type (.lib .cstringRef), .type (.pointer false false .void),
    .type (.pointer true false .void), .namedArg]

/-- The constructors of `MakeValue<char>` (include/blackhole/extensions/format.hpp:971-1123): the private ones, the
public ones, those that take `Null<T>` instead of wide characters and strings, and the templates. The copy constructor,
which would need a conversion by another constructor first and is always worse than the template `const T&`, is left out. -/
def constructors : List Param := privates ++ both ++ [.null, .other, .convertible]

/-- The functions `type` (include/blackhole/extensions/format.hpp:1021-1122): those of wide characters and strings are
public, there are none for other pointers, and there is one template for `const T&`. -/
def types : List Param :=
  both ++ [.type (.arith .wchar), .type (.pointer false false (.arith .wchar)), .type (.pointer true false (.arith .wchar)),
    .type (.lib .wstring), .type (.lib .wstringRef), .anyRef]

/-- What a constructor writes (include/blackhole/extensions/format.hpp:1027-1119) where `long` has 64 bits; nothing for
the private ones. -/
def member : Param → Option Member
  | .type (.arith a) =>
    match a with
    | .bool | .short | .int | .schar | .uchar | .char => some .intValue
    | .ushort | .uint => some .uintValue
    | .long | .llong => some .longLongValue
    | .ulong | .ullong => some .ulongLongValue
    | .float | .double => some .doubleValue
    | .longDouble => some .longDoubleValue
    | _ => none
  | .type (.pointer _ _ .void) => some .pointer
  | .type (.pointer _ _ (.arith .wchar)) => none
  | .type (.pointer _ _ _) => some .cstring
  | .type (.lib .string) | .type (.lib .stringRef) => some .string
  | .type (.lib .cstringRef) => some .cstring
  | .convertible => some .intValue
  | .other => some .custom
  | .namedArg => some .pointer
  | _ => none

/-- What a function `type` returns (include/blackhole/extensions/format.hpp:1027-1122) where `long` has 64 bits. -/
def kindOf (t : Ty) : Param → Option Kind
  | .type (.arith a) =>
    match a with
    | .bool => some .bool
    | .short | .int => some .int
    | .schar | .uchar | .char | .wchar => some .char
    | .ushort | .uint => some .uint
    | .long | .llong => some .longLong
    | .ulong | .ullong => some .ulongLong
    | .float | .double => some .double
    | .longDouble => some .longDouble
    | _ => none
  | .type (.pointer _ _ .void) => some .pointer
  | .type (.pointer _ _ (.arith .wchar)) => some .wstring
  | .type (.pointer _ _ _) => some .cstring
  | .type (.lib .string) | .type (.lib .stringRef) => some .string
  | .type (.lib .cstringRef) => some .cstring
  | .type (.lib .wstring) | .type (.lib .wstringRef) => some .wstring
  | .anyRef => some (if t.convertible then .int else .custom)
  | .namedArg => some .named
  | _ => none

/-- `MakeValue<char>(x)` for `x` of type `t`, if it compiles: the member that is written
(include/blackhole/extensions/format.hpp:1726-1731). -/
def construct (t : Ty) : Option Member := (resolve constructors t).bind member

/-- `MakeValue<char>::type(x)`, if it compiles (include/blackhole/extensions/format.hpp:1680-1681). -/
def type (t : Ty) : Option Kind := (resolve types t).bind (kindOf t)

/-- The member that is read for a type (include/blackhole/extensions/format.hpp:1215-1249, `ArgVisitor::visit`, and
src/format.cpp:753, 765, 774 for named arguments). -/
def Kind.reads : Kind → Member
  | .int | .bool | .char => .intValue
  | .uint => .uintValue
  | .longLong => .longLongValue
  | .ulongLong => .ulongLongValue
  | .double => .doubleValue
  | .longDouble => .longDoubleValue
  | .cstring => .cstring
  | .string => .string
  | .wstring => .wstring
  | .pointer | .named => .pointer
  | .custom => .custom

/-- Whether an object that is not known to `MakeValue` can be printed to a stream, without which the call does not compile
(include/blackhole/extensions/format.hpp:1008-1015, 2644-2676: `os << v`, or `v(os)` for callable objects). Streams print
pointers, and arrays and functions as pointers, and they print a pointer to a member as a `bool`; `nullptr` has no
`operator<<` in C++11. -/
def prints : Ty → Bool
  | .cls c => c.printable
  | .enum _ printable _ => printable
  | .pointer _ _ _ | .array _ _ _ _ | .function | .member => true
  | _ => false

/-- The type under which an argument is written, if the call compiles
(include/blackhole/extensions/format.hpp:1733-1740). -/
def accepts (t : Ty) : Option Kind :=
  match construct t, type t with
  | some _, some k => if k = .custom && !prints t then none else some k
  | _, _ => none

end Blackhole.FmtArgs.Overload
