/-!
# Base types shared by all areas

A C++ `char` sequence (`std::string`, the contents of a `string_view`) is a list of Lean characters.
Every statement holds for all characters, hence in particular for the 256 byte values.
-/

namespace Blackhole

/-- Contents of a `std::string` or of a `string_view` (include/blackhole/stdext/string_view.hpp:25-44). -/
abbrev Str := List Char

/-- `ch! "abc"` is notation for the explicit list `['a', 'b', 'c']`. -/
macro "ch!" x:str : term => do
  let cs := x.getString.toList.map fun c => Lean.Syntax.mkCharLit c
  `([$(cs.toArray),*])

/-- Undefined behaviour and assertion failures, kept apart from every ordinary outcome: not of one place in the code; the
definitions that end in it cite theirs (e.g. include/blackhole/stdext/string_view.hpp:104-106). -/
inductive UB where
  /-- `BOOST_ASSERT` failure (undefined behaviour when assertions are compiled out). -/
  | assertion
  /-- Access to an object whose lifetime has ended. -/
  | dangling
  /-- Dereference of an empty pointer or optional. -/
  | nullDeref
  /-- Read or write outside a buffer. -/
  | outOfBounds
  /-- Use of memory that was never written. -/
  | uninitialised
  deriving DecidableEq, Repr

end Blackhole

namespace Blackhole

/-- Induction on a list from its end. -/
theorem snoc_induction {α : Type} {P : List α → Prop} (nil : P [])
    (snoc : ∀ l a, P l → P (l ++ [a])) : ∀ l, P l := by
  have h : ∀ l : List α, P l.reverse := by
    intro l
    induction l with
    | nil => simpa using nil
    | cons a l ih => rw [List.reverse_cons]; exact snoc _ _ ih
  intro l
  simpa using h l.reverse

/-- Two lists of the same length whose elements are related one by one. -/
inductive Both {α β : Type} (R : α → β → Prop) : List α → List β → Prop
  | nil : Both R [] []
  | cons {a : α} {b : β} {as : List α} {bs : List β} : R a b → Both R as bs → Both R (a :: as) (b :: bs)

theorem Both.mono {α β : Type} {R Q : α → β → Prop} (h : ∀ a b, R a b → Q a b) {as : List α} {bs : List β}
    (hb : Both R as bs) : Both Q as bs := by
  induction hb with
  | nil => exact .nil
  | cons h1 _ ih => exact .cons (h _ _ h1) ih

theorem Both.length {α β : Type} {R : α → β → Prop} {as : List α} {bs : List β} (hb : Both R as bs) :
    as.length = bs.length := by
  induction hb with
  | nil => rfl
  | cons _ _ ih => simp [ih]

end Blackhole
