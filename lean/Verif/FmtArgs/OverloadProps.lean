import Verif.FmtArgs.Overload
import Verif.FmtArgs.Props

/-!
# Which arguments a message may have, and that each is read as what it was stored as (C75)
-/

namespace Blackhole.FmtArgs.Overload

open Fmt (Err Spec)

/-! ## Specification -/

/-- Whether something of this type can be an argument; there are no objects of type `void`. -/
def Ty.Object : Ty → Prop
  | .void => False
  | .array _ _ .void _ => False
  | _ => True

/-- What an argument is written as, by its type. Nothing: the call does not compile. -/
def expected : Ty → Option Kind
  | .arith .bool => some .bool
  | .arith .char | .arith .schar | .arith .uchar => some .char
  | .arith .wchar => none
  | .arith .short | .arith .int => some .int
  | .arith .ushort | .arith .uint => some .uint
  | .arith .long | .arith .llong => some .longLong
  | .arith .ulong | .arith .ullong => some .ulongLong
  | .arith .float | .arith .double => some .double
  | .arith .longDouble => some .longDouble
  -- no overloads of their own
  | .arith .char16 | .arith .char32 | .arith .int128 | .arith .uint128 => some .int
  | .void => none
  | .nullptr => none
  -- C strings, if they are not volatile; of `signed char` and `unsigned char` only if they are `const`
  | .pointer _ v (.arith .char) => if v then none else some .cstring
  | .pointer c v (.arith .schar) | .pointer c v (.arith .uchar) => if c && !v then some .cstring else none
  | .pointer _ v .void => if v then none else some .pointer
  | .pointer _ _ _ => none
  | .array _ v (.arith .char) _ | .array _ v (.arith .schar) _ | .array _ v (.arith .uchar) _ =>
    if v then none else some .cstring
  | .array _ _ _ _ => none
  | .function => none
  | .member => some .custom
  | .enum isClass printable _ => if isClass then (if printable then some .custom else none) else some .int
  | .lib .string | .lib .stringRef => some .string
  | .lib .cstringRef => some .cstring
  | .lib .wstring | .lib .wstringRef => none
  | .cls c => if c.toNumber.isSome then some .int else if c.printable then some .custom else none
  | .named => some .named

/-- The integer types under their names as types. -/
def intTy : IntType → Arith
  | .short => .short | .ushort => .ushort | .int => .int | .uint => .uint
  | .long => .long | .ulong => .ulong | .llong => .llong | .ullong => .ullong

/-- The types that an argument with a value can have in the program: texts are arrays of characters, pointers to
characters or strings; numbers without an overload of their own are enumerators, objects with a conversion, characters
of `char16_t` and `char32_t` and integers of 128 bits. -/
def OfType : CArg → Ty → Prop
  | .integer i _, t => t = .arith (intTy i)
  | .bool _, t => t = .arith .bool
  | .char _, t => t = .arith .char
  | .schar _, t => t = .arith .schar
  | .uchar _, t => t = .arith .uchar
  | .double _, t => t = .arith .float ∨ t = .arith .double
  | .cstr _, t =>
    (∃ c, t = .pointer c false (.arith .char)) ∨ t = .pointer true false (.arith .schar)
    ∨ t = .pointer true false (.arith .uchar) ∨ (∃ c n, t = .array c false (.arith .char) n)
    ∨ (∃ c n, t = .array c false (.arith .schar) n) ∨ (∃ c n, t = .array c false (.arith .uchar) n)
    ∨ t = .lib .cstringRef
  | .string _, t => t = .lib .string ∨ t = .lib .stringRef
  | .pointer _, t => ∃ c, t = .pointer c false .void
  | .convertible _, t =>
    (∃ p u, t = .enum false p u) ∨ (∃ c : Cls, t = .cls c ∧ c.toNumber.isSome) ∨ t = .arith .char16 ∨ t = .arith .char32
    ∨ t = .arith .int128 ∨ t = .arith .uint128
  | .printable _, t =>
    (∃ c : Cls, t = .cls c ∧ c.toNumber = none ∧ c.printable = true) ∨ (∃ u, t = .enum true true u) ∨ t = .member

/-! ## The properties -/

/-- For every type, whatever it is made of: a call compiles exactly if the table says so, and the argument is written as
what the table says. -/
theorem C75_overloads (t : Ty) (h : t.Object) : accepts t = expected t := by
  cases t with
  | void => exact h.elim
  | arith a => cases a <;> rfl
  | nullptr => rfl
  | pointer c v to =>
    cases to with
    | arith a => cases c <;> cases v <;> cases a <;> rfl
    | _ => cases c <;> cases v <;> rfl
  | array c v e n =>
    cases e with
    | arith a => cases v <;> cases a <;> rfl
    | void => exact h.elim
    | _ => cases v <;> rfl
  | function => rfl
  | member => rfl
  | enum k p u => cases k <;> cases p <;> cases u <;> rfl
  | lib l => cases l <;> rfl
  | cls c => rcases c with ⟨_ | (_ | _ | _ | _ | _), _ | n, _ | _⟩ <;> rfl
  | named => rfl

/-- For every type: if an argument of it is stored, the function that says how it is to be read selects a type, and what is
read under that type is the member that was stored. The two are chosen by two separate sets of overloads. -/
theorem C75_read_as_stored (t : Ty) (h : t.Object) (m : Member) (hm : construct t = some m) :
    ∃ k, type t = some k ∧ k.reads = m := by
  cases t with
  | void => exact h.elim
  | arith a => cases a <;> first | (cases hm; done) | (cases hm; exact ⟨_, rfl, rfl⟩)
  | nullptr => cases hm; exact ⟨_, rfl, rfl⟩
  | pointer c v to =>
    cases to with
    | arith a => cases c <;> cases v <;> cases a <;> first | (cases hm; done) | (cases hm; exact ⟨_, rfl, rfl⟩)
    | _ => cases c <;> cases v <;> first | (cases hm; done) | (cases hm; exact ⟨_, rfl, rfl⟩)
  | array c v e n =>
    cases e with
    | arith a => cases v <;> cases a <;> first | (cases hm; done) | (cases hm; exact ⟨_, rfl, rfl⟩)
    | void => exact h.elim
    | _ => cases v <;> first | (cases hm; done) | (cases hm; exact ⟨_, rfl, rfl⟩)
  | function => cases hm
  | member => cases hm; exact ⟨_, rfl, rfl⟩
  | enum k p u => cases k <;> cases u <;> cases hm <;> exact ⟨_, rfl, rfl⟩
  | lib l => cases l <;> first | (cases hm; done) | (cases hm; exact ⟨_, rfl, rfl⟩)
  | cls c => rcases c with ⟨_ | (_ | _ | _ | _ | _), _ | n, p⟩ <;> cases hm <;> exact ⟨_, rfl, rfl⟩
  | named => cases hm; exact ⟨_, rfl, rfl⟩

/-- Both sides occur: texts in a buffer of bytes compile and pointers to bytes do not; a class derived from
`std::string` is printed by its `operator<<`. -/
example : accepts (.array false false (.arith .uchar) 16) = some .cstring
    ∧ accepts (.pointer false false (.arith .uchar)) = none
    ∧ accepts (.pointer true false (.arith .int)) = none
    ∧ accepts (.pointer true false (.pointer false false (.arith .char))) = none
    ∧ accepts (.cls { base := some .string, printable := true }) = some .custom
    ∧ construct .nullptr = some .custom ∧ accepts .nullptr = none := ⟨rfl, rfl, rfl, rfl, rfl, rfl, rfl⟩

/-- The calls that the other theorems speak of are those of the program: an argument of any of the types that it can have
compiles, and is stored under the type that the model gives it. -/
theorem C75_passed (c : CArg) (t : Ty) (h : OfType c t) :
    ∃ k, accepts t = some k ∧ k.code = (make c).type ∧ construct t = some k.reads := by
  cases c with
  | integer i z => cases i <;> cases h <;> exact ⟨_, rfl, rfl, rfl⟩
  | bool b => cases h; exact ⟨_, rfl, rfl, rfl⟩
  | char c => cases h; exact ⟨_, rfl, rfl, rfl⟩
  | schar c => cases h; exact ⟨_, rfl, rfl, rfl⟩
  | uchar c => cases h; exact ⟨_, rfl, rfl, rfl⟩
  | double b => rcases h with rfl | rfl <;> exact ⟨_, rfl, rfl, rfl⟩
  | cstr s =>
    rcases h with ⟨_ | _, rfl⟩ | rfl | rfl | ⟨c, n, rfl⟩ | ⟨c, n, rfl⟩ | ⟨c, n, rfl⟩ | rfl <;> exact ⟨_, rfl, rfl, rfl⟩
  | string s => rcases h with rfl | rfl <;> exact ⟨_, rfl, rfl, rfl⟩
  | pointer n => rcases h with ⟨_ | _, rfl⟩ <;> exact ⟨_, rfl, rfl, rfl⟩
  | convertible z =>
    rcases h with ⟨p, u, rfl⟩ | ⟨⟨b, n, p⟩, rfl, hn⟩ | rfl | rfl | rfl | rfl
    · cases u <;> exact ⟨_, rfl, rfl, rfl⟩
    · cases n with
      | none => cases hn
      | some n => rcases b with _ | (_ | _ | _ | _ | _) <;> exact ⟨_, rfl, rfl, rfl⟩
    all_goals exact ⟨_, rfl, rfl, rfl⟩
  | printable text =>
    rcases h with ⟨⟨b, n, p⟩, rfl, hn, hp⟩ | ⟨u, rfl⟩ | rfl
    · cases hn
      cases hp
      rcases b with _ | (_ | _ | _ | _ | _) <;> exact ⟨_, rfl, rfl, rfl⟩
    · cases u <;> exact ⟨_, rfl, rfl, rfl⟩
    · exact ⟨_, rfl, rfl, rfl⟩

/-- And there are no others: an argument that compiles has one of these types, is a `long double` or is a named argument. -/
theorem C75_passed_all (t : Ty) (h : t.Object) (k : Kind) (ha : accepts t = some k) :
    t = .arith .longDouble ∨ t = .named ∨ ∃ c, OfType c t := by
  rw [C75_overloads t h] at ha
  cases t with
  | void => exact h.elim
  | arith a =>
    cases a with
    | wchar => cases ha
    | longDouble => exact .inl rfl
    | bool => exact .inr (.inr ⟨.bool true, rfl⟩)
    | char => exact .inr (.inr ⟨.char 'a', rfl⟩)
    | schar => exact .inr (.inr ⟨.schar 'a', rfl⟩)
    | uchar => exact .inr (.inr ⟨.uchar 'a', rfl⟩)
    | short => exact .inr (.inr ⟨.integer .short 0, rfl⟩)
    | ushort => exact .inr (.inr ⟨.integer .ushort 0, rfl⟩)
    | int => exact .inr (.inr ⟨.integer .int 0, rfl⟩)
    | uint => exact .inr (.inr ⟨.integer .uint 0, rfl⟩)
    | long => exact .inr (.inr ⟨.integer .long 0, rfl⟩)
    | ulong => exact .inr (.inr ⟨.integer .ulong 0, rfl⟩)
    | llong => exact .inr (.inr ⟨.integer .llong 0, rfl⟩)
    | ullong => exact .inr (.inr ⟨.integer .ullong 0, rfl⟩)
    | float => exact .inr (.inr ⟨.double 0, .inl rfl⟩)
    | double => exact .inr (.inr ⟨.double 0, .inr rfl⟩)
    | _ => exact .inr (.inr ⟨.convertible 0, by simp [OfType]⟩)
  | nullptr => cases ha
  | pointer c v to =>
    cases to with
    | void => cases v with
      | true => cases ha
      | false => exact .inr (.inr ⟨.pointer 0, c, rfl⟩)
    | arith a =>
      cases a with
      | char => cases v with
        | true => cases ha
        | false => exact .inr (.inr ⟨.cstr [], .inl ⟨c, rfl⟩⟩)
      | schar =>
        cases c <;> cases v <;> first | (cases ha; done) | exact .inr (.inr ⟨.cstr [], by simp [OfType]⟩)
      | uchar =>
        cases c <;> cases v <;> first | (cases ha; done) | exact .inr (.inr ⟨.cstr [], by simp [OfType]⟩)
      | _ => cases ha
    | _ => cases ha
  | array c v e n =>
    cases e with
    | void => exact h.elim
    | arith a =>
      cases a <;> cases v <;> first | (cases ha; done) | exact .inr (.inr ⟨.cstr [], by simp [OfType]⟩)
    | _ => cases ha
  | function => cases ha
  | member => exact .inr (.inr ⟨.printable [], by simp [OfType]⟩)
  | enum i p u =>
    cases i with
    | false => exact .inr (.inr ⟨.convertible 0, by simp [OfType]⟩)
    | true => cases p with
      | false => cases ha
      | true => exact .inr (.inr ⟨.printable [], by simp [OfType]⟩)
  | lib l =>
    cases l with
    | string => exact .inr (.inr ⟨.string [], by simp [OfType]⟩)
    | stringRef => exact .inr (.inr ⟨.string [], by simp [OfType]⟩)
    | cstringRef => exact .inr (.inr ⟨.cstr [], by simp [OfType]⟩)
    | _ => cases ha
  | cls c =>
    rcases c with ⟨b, n, p⟩
    cases n with
    | some n => exact .inr (.inr ⟨.convertible 0, by simp [OfType]⟩)
    | none => cases p with
      | false => cases ha
      | true => exact .inr (.inr ⟨.printable [], by simp [OfType]⟩)
  | named => exact .inr (.inl rfl)

/-- What the table leaves the user with: objects that print themselves and convert to a number as well, such as a quantity
with a unit, are not written as what they print; integers of 128 bits are written modulo 2^32, and characters of
`char32_t` as numbers. -/
theorem C75_fails_types (fd : Spec → Nat → Except Err Str) :
    accepts (.cls { toNumber := some .double, printable := true }) = some .int
    ∧ OfType (.convertible (2 ^ 32)) (.arith .uint128) ∧ (CArg.convertible (2 ^ 32)).Valid
    ∧ format fd (ch! "{}") [.val (make (.convertible (2 ^ 32)))] = .ok (ch! "0")
    ∧ OfType (.convertible 120) (.arith .char32)
    ∧ format fd (ch! "{}") [.val (make (.convertible 120))] = .ok (ch! "120") := by
  refine ⟨rfl, by simp [OfType], .inl (by simp [IntType.holds]), (C75_fails_convertible fd).2.2.1, by simp [OfType], ?_⟩
  rw [(C75_convertible fd 120).1]
  rfl

end Blackhole.FmtArgs.Overload
