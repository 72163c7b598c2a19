import Verif.Attr.Args

/-!
# What is written as the value of an attribute is what is read (C74)
-/

namespace Blackhole.Attr

/-! ## Specification -/

/-- A C string: the characters before the first NUL. -/
def cString (cs : List Char) : Str := cs.takeWhile (· ≠ '\x00')

/-- What the author of the program means by an argument: its type among the documented ones and its value. Nothing is
expected for arguments that have no such meaning. -/
inductive Means : Arg → Got → Prop
  | null : Means .nullptr .null
  | bool {b : Bool} : Means (.bool b) (.bool b)
  | signed {c : CInt} {v : BitVec 64} : c.isSigned = true → v.toInt = c.math → Means (.cint c) (.sint64 v)
  | unsigned {c : CInt} {v : BitVec 64} : c.isSigned = false → (v.toNat : Int) = c.math → Means (.cint c) (.uint64 v)
  | schar {b : BitVec 8} {v : BitVec 64} : v.toInt = b.toInt → Means (.schar b) (.sint64 v)
  | wchar {b : BitVec 32} {v : BitVec 64} : v.toInt = b.toInt → Means (.wchar b) (.sint64 v)
  | float {d : BitVec 64} : Means (.float d) (.double d)
  | double {d : BitVec 64} : Means (.double d) (.double d)
  | array {cs : List Char} : '\x00' ∈ cs → Means (.array cs) (.string (cString cs))
  | pointer {cs : List Char} : '\x00' ∈ cs → Means (.pointer (some cs)) (.string (cString cs))
  | string {s : Str} : Means (.string s) (.string s)
  | view {s : Str} : Means (.view s) (.string s)

/-- The argument is an array that is longer than its text. -/
def Arg.spare : Arg → Bool
  | .array cs => cs.idxOf '\x00' + 1 ≠ cs.length
  | _ => false

def Arg.isPointer : Arg → Bool
  | .pointer _ => true
  | _ => false

/-! ## Which constructor -/

theorem value_cint (c : CInt) : Value.ofArg (.cint c) = some (Value.ofCInt c) := by cases c <;> rfl

theorem view_cint (c : CInt) : View.ofArg (.cint c) = some (View.ofValue (Value.ofCInt c)) := by cases c <;> rfl

theorem value_array (cs : List Char) : Value.ofArg (.array cs) = some (.string cs.dropLast) := rfl

theorem view_array (cs : List Char) : View.ofArg (.array cs) = some (.string cs.dropLast) := rfl

theorem cString_idx (cs : List Char) : cString cs = cs.take (cs.idxOf '\x00') := by
  induction cs with
  | nil => rfl
  | cons c cs ih =>
    by_cases h : c = '\x00'
    · subst h; simp [cString]
    · have hb : (c == '\x00') = false := by simp [h]
      simp only [cString] at ih
      rw [List.idxOf_cons, hb, cString, List.takeWhile_cons_of_pos (by simp [h]), ih]
      rfl

/-- The text is the whole array without its last character exactly if this is the first NUL. -/
theorem dropLast_cString {cs : List Char} (h : '\x00' ∈ cs) : cs.dropLast = cString cs ↔ cs.idxOf '\x00' + 1 = cs.length := by
  have hl := List.idxOf_lt_length_iff.2 h
  rw [cString_idx, List.dropLast_eq_take]
  constructor
  · intro e
    have := congrArg List.length e
    simp at this
    omega
  · intro e
    congr 1
    omega

/-! ## Theorems -/

/-- Except for pointers and arrays longer than their text: an argument of an attribute given with the log call reads as what
was meant, and as nothing else. -/
theorem C74_view_partial {a : Arg} {g : Got} (h : Means a g) (hp : a.isPointer = false) (hs : a.spare = false) :
    ∃ v, View.ofArg a = some v ∧ v.get g.kind = .ok g ∧ ∀ k, k ≠ g.kind → v.get k = .error .badCast := by
  have fin : ∀ v : Value, View.ofArg a = some (View.ofValue v) → v.get g.kind = .ok g →
      ∃ v, View.ofArg a = some v ∧ v.get g.kind = .ok g ∧ ∀ k, k ≠ g.kind → v.get k = .error .badCast := by
    intro v h1 h2
    refine ⟨_, h1, by rw [C13_view_reads_like_value]; exact h2, ?_⟩
    intro k hk
    rw [C13_view_reads_like_value]
    obtain ⟨k', g', h3, h4, h5⟩ := C13_value_exactly_one_type v
    by_cases e : k = k'
    · subst e
      have := h5 g.kind (Ne.symm hk)
      rw [h2] at this
      cases this
    · exact h5 k e
  cases h with
  | @signed c v hc hv =>
    refine fin _ (view_cint c) ?_
    obtain ⟨g, h1, h2, h3⟩ := C13_value_int_roundtrip c
    simp only [CInt.kind, hc, if_true] at h1 h2
    cases g <;> simp [Got.kind] at h2
    rename_i v'
    simp only [Got.math, Option.some.injEq] at h3
    have : v' = v := BitVec.eq_of_toInt_eq (h3.trans hv.symm)
    subst this
    exact h1
  | @unsigned c v hc hv =>
    refine fin _ (view_cint c) ?_
    obtain ⟨g, h1, h2, h3⟩ := C13_value_int_roundtrip c
    simp [CInt.kind, hc] at h1 h2
    cases g <;> simp [Got.kind] at h2
    rename_i v'
    simp only [Got.math, Option.some.injEq] at h3
    have : v' = v := BitVec.eq_of_toNat_eq (by have := h3.trans hv.symm; omega)
    subst this
    exact h1
  | @schar b v hv =>
    refine fin _ rfl ?_
    have : v = (b.signExtend 32).signExtend 64 :=
      BitVec.eq_of_toInt_eq (by rw [hv, BitVec.toInt_signExtend_of_le (by omega), BitVec.toInt_signExtend_of_le (by omega)])
    subst this
    rfl
  | @wchar b v hv =>
    refine fin _ rfl ?_
    have : v = b.signExtend 64 := BitVec.eq_of_toInt_eq (by rw [hv, BitVec.toInt_signExtend_of_le (by omega)])
    subst this
    rfl
  | @array cs hz =>
    refine fin (.string cs.dropLast) rfl ?_
    have : cs.idxOf '\x00' + 1 = cs.length := by simpa [Arg.spare] using hs
    rw [(dropLast_cString hz).2 this]
    rfl
  | pointer => simp [Arg.isPointer] at hp
  | null => exact fin .null rfl rfl
  | bool => exact fin (.bool _) rfl rfl
  | float => exact fin (.double _) rfl rfl
  | double => exact fin (.double _) rfl rfl
  | string => exact fin (.string _) rfl rfl
  | view => exact fin (.string _) rfl rfl

/-- For attributes that are kept (scopes and wrappers) the same, whenever it compiles; only a string view does not. -/
theorem C74_value_partial {a : Arg} {g : Got} (h : Means a g) (hp : a.isPointer = false) (hs : a.spare = false)
    (hv : ∀ s, a ≠ .view s) :
    ∃ v, Value.ofArg a = some v ∧ v.get g.kind = .ok g ∧ ∀ k, k ≠ g.kind → v.get k = .error .badCast := by
  obtain ⟨v, h1, h2, h3⟩ := C74_view_partial h hp hs
  have same : ∀ w : Value, Value.ofArg a = some w → View.ofArg a = some (View.ofValue w) →
      ∃ v, Value.ofArg a = some v ∧ v.get g.kind = .ok g ∧ ∀ k, k ≠ g.kind → v.get k = .error .badCast := by
    intro w e1 e2
    rw [e2] at h1
    cases h1
    exact ⟨w, e1, by rw [← C13_view_reads_like_value]; exact h2,
      fun k hk => by rw [← C13_view_reads_like_value]; exact h3 k hk⟩
  cases h with
  | @signed c v hc hv' => exact same _ (value_cint c) (view_cint c)
  | @unsigned c v hc hv' => exact same _ (value_cint c) (view_cint c)
  | schar => exact same _ rfl rfl
  | wchar => exact same _ rfl rfl
  | array => exact same _ rfl rfl
  | pointer => simp [Arg.isPointer] at hp
  | null => exact same _ rfl rfl
  | bool => exact same _ rfl rfl
  | float => exact same _ rfl rfl
  | double => exact same _ rfl rfl
  | string => exact same _ rfl rfl
  | view => exact absurd rfl (hv _)

/-- A `const char*` is taken for a truth value: the text cannot be read, whatever it is, and what is read instead is `true`. -/
theorem C74_fails_pointer (cs : List Char) : ∃ v w, View.ofArg (.pointer (some cs)) = some v ∧
    Value.ofArg (.pointer (some cs)) = some w ∧ v.get .bool = .ok (.bool true) ∧ w.get .bool = .ok (.bool true) ∧
    v.get .string = .error .badCast ∧ w.get .string = .error .badCast :=
  ⟨.bool true, .bool true, rfl, rfl, rfl, rfl, rfl, rfl⟩

/-- An array that is longer than its text is read with the NUL and what is behind it. -/
theorem C74_fails_buffer {cs : List Char} (hz : '\x00' ∈ cs) (hs : (Arg.array cs).spare = true) :
    ∃ v s, View.ofArg (.array cs) = some v ∧ v.get .string = .ok (.string s) ∧ s ≠ cString cs ∧ '\x00' ∈ s := by
  refine ⟨.string cs.dropLast, cs.dropLast, rfl, rfl, ?_, ?_⟩
  · intro e
    have := (dropLast_cString hz).1 e
    simp [Arg.spare, this] at hs
  · have hl := List.idxOf_lt_length_iff.2 hz
    have hs : cs.idxOf '\x00' + 1 ≠ cs.length := by simpa [Arg.spare] using hs
    rw [List.dropLast_eq_take, List.mem_take_iff_getElem]
    exact ⟨cs.idxOf '\x00', by omega, by simp⟩

/-- The documentation of `value_t` lists functions that write the value lazily, but no constructor takes one: a closure does
not compile and a function without captured variables becomes `true`. -/
theorem C74_fails_function : Value.ofArg .closure = none ∧ Value.ofArg .callable = some (.bool true) := ⟨rfl, rfl⟩

/-! ## Cases that meet the hypotheses -/

/-- `{"key", "text"}` -/
example : Means (.array ['t', 'e', 'x', 't', '\x00']) (.string "text".toList) ∧
    (Arg.array ['t', 'e', 'x', 't', '\x00']).spare = false ∧ (Arg.array ['t', 'e', 'x', 't', '\x00']).isPointer = false :=
  ⟨.array (by decide), by decide, rfl⟩

/-- `char buf[8]; snprintf(buf, sizeof(buf), "text");` -/
example : (Arg.array ['t', 'e', 'x', 't', '\x00', '?', '?', '?']).spare = true ∧
    View.ofArg (.array ['t', 'e', 'x', 't', '\x00', '?', '?', '?']) = some (.string ['t', 'e', 'x', 't', '\x00', '?', '?']) :=
  ⟨by decide, rfl⟩

example : Means (.schar 0xff#8) (.sint64 (-1)) := .schar (by decide)

/-- A `long double` is ambiguous. -/
example : View.ofArg .longDouble = none := rfl

/-- The constructor of `value_t` that C++ takes for each type of argument; none if the call does not compile: there is no
constructor for views of strings and for function objects, and for `long double` several are equally good. -/
theorem C74_value_constructors (a : Arg) : choose valueParams a = match a with
    | .nullptr => some .nullptr
    | .bool _ => some .bool
    | .cint c => some (.int c.type)
    | .schar _ | .wchar _ => some (.int .int)
    | .float _ | .double _ => some .double
    | .array _ => some .array
    | .pointer _ | .callable => some .bool
    | .string _ => some .string
    | .longDouble | .closure | .view _ => none := by
  cases a <;> first | rfl | (rename_i c; cases c <;> rfl)

/-- The same for `view_t`. -/
theorem C74_view_constructors (a : Arg) : choose viewParams a = match a with
    | .nullptr => some .nullptr
    | .bool _ => some .bool
    | .cint c => some (.int c.type)
    | .schar _ | .wchar _ => some (.int .int)
    | .float _ => some .float
    | .double _ => some .double
    | .array _ => some .array
    | .pointer _ | .callable => some .bool
    | .string _ => some .string
    | .view _ => some .view
    | .longDouble | .closure => none := by
  cases a <;> first | rfl | (rename_i c; cases c <;> rfl)

/-- Exactly these arguments do not compile. -/
theorem C74_compiles (a : Arg) :
    (Value.ofArg a = none ↔ a = .longDouble ∨ a = .closure ∨ ∃ s, a = .view s)
    ∧ (View.ofArg a = none ↔ a = .longDouble ∨ a = .closure) := by
  unfold Value.ofArg View.ofArg
  rw [C74_value_constructors, C74_view_constructors]
  cases a <;> simp [construct]

end Blackhole.Attr
