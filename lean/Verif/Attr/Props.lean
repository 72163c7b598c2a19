import Verif.Attr.Model

/-!
# Property C13: attribute values keep their type and numeric value
-/

namespace Blackhole.Attr

/-! ## Specification (independent of the model's conversions) -/

/-- Signedness of a C++ integer type. -/
def CInt.isSigned : CInt → Bool
  | .char _ | .short _ | .int _ | .long _ | .longlong _ => true
  | .uchar _ | .ushort _ | .uint _ | .ulong _ | .ulonglong _ => false

/-- The mathematical value denoted by a C++ integer of each type. -/
def CInt.math : CInt → Int
  | .char v => v.toInt | .short v => v.toInt | .int v => v.toInt
  | .long v => v.toInt | .longlong v => v.toInt
  | .uchar v => v.toNat | .ushort v => v.toNat | .uint v => v.toNat
  | .ulong v => v.toNat | .ulonglong v => v.toNat

/-- The mathematical value of a 64-bit reading. -/
def Got.math : Got → Option Int
  | .sint64 v => some v.toInt
  | .uint64 v => some v.toNat
  | _ => none

/-- The type of a reading. -/
def Got.kind : Got → Kind
  | .null => .null | .bool _ => .bool | .sint64 _ => .sint64 | .uint64 _ => .uint64
  | .double _ => .double | .string _ => .string | .function _ => .function

/-- The type a C++ integer is expected to be stored as. -/
def CInt.kind (c : CInt) : Kind := if c.isSigned then .sint64 else .uint64

/-! ## Theorems -/

/-- Reading a value built from any integer succeeds at the type given by its signedness, and gives the
same mathematical value. -/
theorem C13_value_int_roundtrip (c : CInt) :
    ∃ g, (Value.ofCInt c).get c.kind = .ok g ∧ g.kind = c.kind ∧ g.math = some c.math := by
  cases c <;>
    simp [Value.ofCInt, CInt.kind, CInt.isSigned, Value.get, Got.math, CInt.math, Got.kind,
      BitVec.toInt_signExtend_of_le] <;> omega

/-- The same for views. -/
theorem C13_view_int_roundtrip (c : CInt) :
    ∃ g, (View.ofCInt c).get c.kind = .ok g ∧ g.kind = c.kind ∧ g.math = some c.math := by
  cases c <;>
    simp [View.ofCInt, CInt.kind, CInt.isSigned, View.get, Got.math, CInt.math, Got.kind,
      BitVec.toInt_signExtend_of_le] <;> omega

/-- Reading an integer attribute as any other type throws. -/
theorem C13_value_int_wrong_type (c : CInt) (k : Kind) (h : k ≠ c.kind) :
    (Value.ofCInt c).get k = .error .badCast := by
  cases c <;> cases k <;> simp_all [Value.ofCInt, CInt.kind, CInt.isSigned, Value.get]

/-- The same for views. -/
theorem C13_view_int_wrong_type (c : CInt) (k : Kind) (h : k ≠ c.kind) :
    (View.ofCInt c).get k = .error .badCast := by
  cases c <;> cases k <;> simp_all [View.ofCInt, CInt.kind, CInt.isSigned, View.get]

/-- Whatever the stored value, reading succeeds at exactly one type, and the result has that type. -/
theorem C13_value_exactly_one_type (v : Value) :
    ∃ k g, v.get k = .ok g ∧ g.kind = k ∧ ∀ k', k' ≠ k → v.get k' = .error .badCast := by
  cases v with
  | null => exact ⟨.null, .null, rfl, rfl, fun k' h => by cases k' <;> simp_all [Value.get]⟩
  | bool b => exact ⟨.bool, .bool b, rfl, rfl, fun k' h => by cases k' <;> simp_all [Value.get]⟩
  | sint b => exact ⟨.sint64, .sint64 b, rfl, rfl, fun k' h => by cases k' <;> simp_all [Value.get]⟩
  | uint b => exact ⟨.uint64, .uint64 b, rfl, rfl, fun k' h => by cases k' <;> simp_all [Value.get]⟩
  | double b => exact ⟨.double, .double b, rfl, rfl, fun k' h => by cases k' <;> simp_all [Value.get]⟩
  | string b => exact ⟨.string, .string b, rfl, rfl, fun k' h => by cases k' <;> simp_all [Value.get]⟩
  | function b =>
    exact ⟨.function, .function b, rfl, rfl, fun k' h => by cases k' <;> simp_all [Value.get]⟩

/-- A view of an owned value reads exactly like the value, at every type. -/
theorem C13_view_reads_like_value (v : Value) (k : Kind) : (View.ofValue v).get k = v.get k := by
  cases v <;> cases k <;> rfl

/-- Capturing a view of a non-lazy value and viewing it again gives the same view. -/
theorem C13_capture_roundtrip (eval : Nat → Str) (w : View) (h : ∀ id, w ≠ .function id) :
    View.ofValue (Value.ofView eval w) = w := by
  cases w <;> simp_all [View.ofValue, Value.ofView]

/-- Capturing a lazy attribute yields a string attribute with the text it produced at that time. -/
theorem C13_capture_lazy (eval : Nat → Str) (id : Nat) (k : Kind) :
    (View.ofValue (Value.ofView eval (.function id))).get k =
      if k = .string then .ok (.string (eval id)) else .error .badCast := by
  cases k <;> rfl

/-- Two views of the same value compare equal whenever the value is not a double, and different
non-double values of the same or different types compare unequal. -/
theorem C13_view_equality (feq) (a b : Value) (ha : ∀ d, a ≠ .double d) :
    (View.ofValue a).beq feq (View.ofValue b) = true ↔ a = b := by
  cases a <;> cases b <;> simp_all [View.ofValue, View.beq]

/-! ## Witnesses -/

example : (Value.ofCInt (.char 0xff#8)).get .sint64 = .ok (.sint64 0xffffffffffffffff#64) := rfl
example : (CInt.char 0xff#8).math = -1 := by decide
example : (Value.ofCInt (.uchar 0xff#8)).get .uint64 = .ok (.uint64 255#64) := rfl
example : Kind.double ≠ (CInt.int 5#32).kind := by decide
example : ∀ id, View.string ['a'] ≠ .function id := by simp
example : ∀ d, Value.string ['a'] ≠ .double d := by simp

end Blackhole.Attr
