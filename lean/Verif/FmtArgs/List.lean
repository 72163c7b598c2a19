import Verif.FmtArgs.Spec

/-! # Lemmas about the packed list of arguments and the map of names -/

namespace Blackhole.FmtArgs

theorem type_pos (a : Passed) : 0 < a.type ∧ a.type < 16 := by
  cases a with
  | named n v => simp [Passed.type]
  | val v =>
    cases v with
    | arg a => cases a <;> simp [Passed.type, Val.type]
    | _ => simp [Passed.type, Val.type]

theorem makeType_cons (a : Passed) (tail : List Passed) :
    makeType (a :: tail) = a.type + 16 * (makeType tail % 2 ^ 60) := by
  have h : (makeType tail <<< 4) % 2 ^ 64 = 2 ^ 4 * (makeType tail % 2 ^ 60) := by
    rw [Nat.shiftLeft_eq]; omega
  have ht : a.type < 2 ^ 4 := (type_pos a).2
  rw [makeType, h, Nat.or_comm, ← Nat.two_pow_add_eq_or_of_lt ht]
  omega

/-- The type of the `i`-th argument; 0 behind the last one. -/
def typeOf (args : List Passed) (i : Nat) : Nat :=
  match args[i]? with
  | some a => a.type
  | none => 0

theorem makeType_nibble (args : List Passed) : ∀ i, i < 16 → makeType args / 2 ^ (i * 4) % 16 = typeOf args i := by
  induction args with
  | nil => intro i _; simp [makeType, typeOf]
  | cons a tail ih =>
    intro i hi
    have hp := type_pos a
    rw [makeType_cons]
    cases i with
    | zero =>
      have e : typeOf (a :: tail) 0 = a.type := rfl
      rw [e]
      simp only [Nat.zero_mul, Nat.pow_zero, Nat.div_one]
      omega
    | succ i =>
      have e : typeOf (a :: tail) (i + 1) = typeOf tail i := rfl
      rw [e, ← ih i (by omega)]
      have e2 : 2 ^ ((i + 1) * 4) = 16 * 2 ^ (i * 4) := by
        rw [Nat.add_mul, Nat.pow_add]; omega
      rw [e2, ← Nat.div_div_eq_div_mul]
      have e3 : (a.type + 16 * (makeType tail % 2 ^ 60)) / 16 = makeType tail % 2 ^ 60 := by omega
      rw [e3]
      have e4 : 2 ^ 60 = 2 ^ (i * 4) * (2 ^ (56 - i * 4) * 16) := by
        rw [show (16 : Nat) = 2 ^ 4 from rfl, ← Nat.pow_add, ← Nat.pow_add]
        congr 1
        omega
      rw [e4, Nat.mod_mul_right_div_self, Nat.mod_mod_of_dvd]
      exact Nat.dvd_mul_left _ _

theorem list_type (args : List Passed) (i : Nat) (hi : i < 16) : (makeArgList args).type i = typeOf args i := by
  rw [← makeType_nibble args i hi]
  show (makeType args &&& ((15 <<< (i * 4)) % 2 ^ 64)) >>> (i * 4) = _
  have h : (15 <<< (i * 4)) % 2 ^ 64 = 15 <<< (i * 4) := by
    apply Nat.mod_eq_of_lt
    rw [Nat.shiftLeft_eq]
    calc 15 * 2 ^ (i * 4) ≤ 15 * 2 ^ 60 := Nat.mul_le_mul_left _ (Nat.pow_le_pow_right (by omega) (by omega))
      _ < 2 ^ 64 := by omega
  rw [h, Nat.shiftRight_and_distrib, Nat.shiftLeft_shiftRight, show 15 = 2 ^ 4 - 1 from rfl,
    Nat.and_two_pow_sub_one_eq_mod, Nat.shiftRight_eq_div_pow]

theorem typeOf_eq_zero {args : List Passed} {i : Nat} : typeOf args i = 0 ↔ args.length ≤ i := by
  unfold typeOf
  split
  · rename_i a h
    have := type_pos a
    have := (List.getElem?_eq_some_iff.mp h).1
    omega
  · rename_i h
    simpa using h

theorem typeOf_some {args : List Passed} {i : Nat} {a : Passed} (h : args[i]? = some a) : typeOf args i = a.type := by
  simp [typeOf, h]

theorem readAs_self (a : Passed) : readAs a.type (some a) = .ok a := by simp [readAs]

/-- Fewer than 16 arguments. -/
theorem values_store {args : List Passed} (h : args.length < 16) :
    (makeArgList args).store = .values (args.map some ++ if args.length = 0 then [none] else []) := by
  simp [makeArgList, h]

theorem args_store {args : List Passed} (h : 16 ≤ args.length) :
    (makeArgList args).store = .args ((args.map fun a => { value := some a, type := if args.length > 16 then some a.type else none })
        ++ [{ value := none, type := some 0 }]) := by
  simp [makeArgList, Nat.not_lt.mpr h]

theorem valueAt_eq {args : List Passed} (h : args.length < 16) {i : Nat} {a : Passed} (ha : args[i]? = some a) :
    (makeArgList args).valueAt i = .ok (some a) := by
  unfold ArgList.valueAt
  have hi := (List.getElem?_eq_some_iff.mp ha).1
  rw [values_store h]
  simp only
  rw [List.getElem?_append_left (by simpa using hi), List.getElem?_map, ha]
  rfl

theorem argAt_eq {args : List Passed} (h : 16 ≤ args.length) {i : Nat} {a : Passed} (ha : args[i]? = some a) :
    (makeArgList args).argAt i = .ok { value := some a, type := if args.length > 16 then some a.type else none } := by
  unfold ArgList.argAt
  have hi := (List.getElem?_eq_some_iff.mp ha).1
  rw [args_store h]
  simp only
  rw [List.getElem?_append_left (by simpa using hi), List.getElem?_map, ha]
  rfl

theorem argAt_end {args : List Passed} (h : 16 ≤ args.length) :
    (makeArgList args).argAt args.length = .ok { value := none, type := some 0 } := by
  unfold ArgList.argAt
  rw [args_store h]
  simp

/-- From the 16th element on every type may be read, up to the mark. -/
theorem typeAt_eq {args : List Passed} (h : 16 ≤ args.length) {i : Nat} (h1 : 16 ≤ i) (h2 : i ≤ args.length) :
    (makeArgList args).typeAt i = .ok (typeOf args i) := by
  unfold ArgList.typeAt
  by_cases he : i = args.length
  · subst he
    rw [argAt_end h, typeOf_eq_zero.mpr (Nat.le_refl _)]
  · obtain ⟨a, ha⟩ : ∃ a, args[i]? = some a := ⟨args[i]'(by omega), List.getElem?_eq_getElem (by omega)⟩
    rw [argAt_eq h ha, typeOf_some ha]
    have : args.length > 16 := by omega
    simp [this]

theorem scan_eq {args : List Passed} (h : 16 ≤ args.length) (n : Nat) : ∀ i, 16 ≤ i → i ≤ args.length →
    (makeArgList args).scan n i = .ok (decide (i + n ≤ args.length)) := by
  induction n with
  | zero =>
    intro i h1 h2
    simp [ArgList.scan, h2]
  | succ n ih =>
    intro i h1 h2
    rw [ArgList.scan, typeAt_eq h h1 h2]
    simp only
    by_cases h0 : typeOf args i = 0
    · rw [if_pos h0]
      have := typeOf_eq_zero.mp h0
      congr 1
      symm
      simp
      omega
    · rw [if_neg h0]
      have : ¬ args.length ≤ i := fun hh => h0 (typeOf_eq_zero.mpr hh)
      rw [ih (i + 1) (by omega) (by omega)]
      congr 2
      apply propext
      omega

theorem get_eq (args : List Passed) (i : Nat) : (makeArgList args).get i = .ok args[i]? := by
  unfold ArgList.get
  simp only
  rw [list_type args 15 (by omega)]
  by_cases hi : i < 16
  · rw [if_pos hi, list_type args i hi]
    by_cases h0 : typeOf args i = 0
    · rw [if_pos h0]
      have := typeOf_eq_zero.mp h0
      simp [this]
    · rw [if_neg h0]
      have hl : i < args.length := by
        have := mt typeOf_eq_zero.mpr h0
        omega
      obtain ⟨a, ha⟩ : ∃ a, args[i]? = some a := ⟨args[i]'hl, List.getElem?_eq_getElem hl⟩
      rw [typeOf_some ha, ha]
      by_cases hn : typeOf args 15 = 0
      · have := typeOf_eq_zero.mp hn
        rw [if_pos hn, valueAt_eq (by omega) ha]
        simp only
        rw [readAs_self]
        rfl
      · have := mt typeOf_eq_zero.mpr hn
        rw [if_neg hn, argAt_eq (by omega) ha]
        simp only
        rw [readAs_self]
        rfl
  · rw [if_neg hi]
    by_cases hn : typeOf args 15 = 0
    · have := typeOf_eq_zero.mp hn
      rw [if_pos hn, List.getElem?_eq_none (by omega)]
    · have := mt typeOf_eq_zero.mpr hn
      rw [if_neg hn, scan_eq (by omega) _ 16 (by omega) (by omega)]
      by_cases hl : i < args.length
      · obtain ⟨a, ha⟩ : ∃ a, args[i]? = some a := ⟨args[i]'hl, List.getElem?_eq_getElem hl⟩
        rw [show decide (16 + (i + 1 - 16) ≤ args.length) = true by simp; omega]
        simp only
        rw [argAt_eq (by omega) ha, typeAt_eq (by omega) (by omega) (by omega), typeOf_some ha, ha]
        simp only
        rw [readAs_self]
        rfl
      · rw [show decide (16 + (i + 1 - 16) ≤ args.length) = false by simp; omega]
        simp only
        rw [List.getElem?_eq_none (by omega)]

/-! ## Names -/

/-- Inserting the named ones of a list in order. -/
def insertAll : Map → List Passed → Map
  | m, [] => m
  | m, .named n v :: l => insertAll (m.insert n v) l
  | m, .val _ :: l => insertAll m l

theorem type_one {a : Passed} : a.type = 1 ↔ ∃ n v, a = .named n v := by
  cases a with
  | named n v => simp [Passed.type]
  | val v =>
    cases v with
    | arg a => cases a <;> simp [Passed.type, Val.type]
    | _ => simp [Passed.type, Val.type]

theorem insertAll_other {a : Passed} (h : a.type ≠ 1) (m : Map) (l : List Passed) : insertAll m (a :: l) = insertAll m l := by
  cases a with
  | named n v => exact absurd rfl h
  | val v => rfl

theorem drop_of_get {args : List Passed} {i : Nat} {a : Passed} (h : args[i]? = some a) : args.drop i = a :: args.drop (i + 1) := by
  obtain ⟨h1, h2⟩ := List.getElem?_eq_some_iff.mp h
  rw [← h2, List.drop_eq_getElem_cons h1]

theorem initValues_eq {args : List Passed} (h : args.length < 16) (fuel : Nat) : ∀ i m, i + fuel = 16 → i ≤ args.length →
    initValues (makeArgList args) fuel i m = .ok (insertAll m (args.drop i)) := by
  induction fuel with
  | zero => intro i m hi hl; omega
  | succ fuel ih =>
    intro i m hi hl
    rw [initValues]
    rw [list_type args i (by omega)]
    by_cases h0 : typeOf args i = 0
    · have := typeOf_eq_zero.mp h0
      rw [if_pos h0, List.drop_eq_nil_of_le this]
      rfl
    · have hl' : i < args.length := by
        have := mt typeOf_eq_zero.mpr h0
        omega
      obtain ⟨a, ha⟩ : ∃ a, args[i]? = some a := ⟨args[i]'hl', List.getElem?_eq_getElem hl'⟩
      rw [if_neg h0, typeOf_some ha, drop_of_get ha]
      by_cases h1 : a.type = 1
      · obtain ⟨n, v, rfl⟩ := type_one.mp h1
        rw [if_pos h1, valueAt_eq h ha]
        exact ih (i + 1) _ (by omega) (by omega)
      · rw [if_neg h1, insertAll_other h1]
        exact ih (i + 1) _ (by omega) (by omega)

theorem initPacked_eq {args : List Passed} (h : 16 ≤ args.length) (n : Nat) : ∀ i m, i + n = 16 →
    ∃ m', initPacked (makeArgList args) n i m = .ok m' ∧ insertAll m (args.drop i) = insertAll m' (args.drop 16) := by
  induction n with
  | zero => intro i m hi; exact ⟨m, rfl, by rw [show i = 16 by omega]⟩
  | succ n ih =>
    intro i m hi
    obtain ⟨a, ha⟩ : ∃ a, args[i]? = some a := ⟨args[i]'(by omega), List.getElem?_eq_getElem (by omega)⟩
    rw [initPacked, list_type args i (by omega), typeOf_some ha, drop_of_get ha]
    by_cases h1 : a.type = 1
    · obtain ⟨nm, v, rfl⟩ := type_one.mp h1
      rw [if_pos h1, argAt_eq h ha]
      exact ih (i + 1) _ (by omega)
    · rw [if_neg h1, insertAll_other h1]
      exact ih (i + 1) _ (by omega)

theorem initRest_eq {args : List Passed} (h : 16 ≤ args.length) (fuel : Nat) : ∀ i m, 16 ≤ i → i ≤ args.length →
    args.length < i + fuel → initRest (makeArgList args) fuel i m = .ok (insertAll m (args.drop i)) := by
  induction fuel with
  | zero => intro i m h1 h2 h3; omega
  | succ fuel ih =>
    intro i m h1 h2 h3
    rw [initRest, typeAt_eq h h1 h2]
    by_cases h0 : typeOf args i = 0
    · have := typeOf_eq_zero.mp h0
      have he : i = args.length := by omega
      subst he
      rw [argAt_end h]
      simp only
      rw [if_pos h0, List.drop_eq_nil_of_le this]
      rfl
    · have hl' : i < args.length := by
        have := mt typeOf_eq_zero.mpr h0
        omega
      obtain ⟨a, ha⟩ : ∃ a, args[i]? = some a := ⟨args[i]'hl', List.getElem?_eq_getElem hl'⟩
      rw [argAt_eq h ha]
      simp only
      rw [if_neg h0, typeOf_some ha, drop_of_get ha]
      by_cases h1 : a.type = 1
      · obtain ⟨n, v, rfl⟩ := type_one.mp h1
        rw [if_pos h1]
        exact ih (i + 1) _ (by omega) (by omega) (by omega)
      · rw [if_neg h1, insertAll_other h1]
        exact ih (i + 1) _ (by omega) (by omega) (by omega)

theorem initMap_eq (args : List Passed) : initMap (makeArgList args) = .ok (insertAll [] args) := by
  unfold initMap
  rw [list_type args 15 (by omega)]
  by_cases hn : typeOf args 15 = 0
  · have := typeOf_eq_zero.mp hn
    rw [if_pos hn, initValues_eq (by omega) 16 0 [] rfl (by omega)]
    rfl
  · have := mt typeOf_eq_zero.mpr hn
    rw [if_neg hn]
    obtain ⟨m, h1, h2⟩ := initPacked_eq (by omega : 16 ≤ args.length) 16 0 [] rfl
    rw [h1]
    simp only
    rw [initRest_eq (by omega) _ 16 m (by omega) (by omega) (by rw [args_store (by omega)]; simp [Store.size]; omega), ← h2]
    rfl

theorem lookup_append (m : Map) (n name : Str) (v : Val) :
    (m ++ [(n, v)]).lookup name = (m.lookup name).or (if name = n then some v else none) := by
  induction m with
  | nil =>
    by_cases h : name = n
    · subst h; simp [List.lookup]
    · have : (name == n) = false := by simpa using h
      simp [List.lookup, this, h]
  | cons x m ih =>
    obtain ⟨k, w⟩ := x
    simp only [List.cons_append, List.lookup]
    cases h : name == k with
    | true => simp
    | false => simpa using ih

theorem lookup_insert (m : Map) (n name : Str) (v : Val) :
    (m.insert n v).lookup name = (m.lookup name).or (if n = name then some v else none) := by
  unfold Map.insert
  split
  · rename_i h
    by_cases hn : n = name
    · subst hn
      obtain ⟨w, hw⟩ := Option.isSome_iff_exists.mp h
      simp [hw]
    · simp [hn]
  · rw [lookup_append]
    by_cases hn : n = name
    · subst hn; simp
    · have : ¬ name = n := fun e => hn e.symm
      simp [hn, this]

theorem lookup_insertAll (name : Str) (args : List Passed) : ∀ m,
    (insertAll m args).lookup name = (m.lookup name).or (firstNamed args name) := by
  induction args with
  | nil => intro m; simp [insertAll, firstNamed]
  | cons a args ih =>
    intro m
    cases a with
    | val v => exact ih m
    | named n v =>
      rw [insertAll, ih, lookup_insert, firstNamed]
      by_cases h : n = name
      · simp only [if_pos h]
        cases m.lookup name <;> simp
      · simp [if_neg h]

theorem findName_eq (args : List Passed) (name : Str) : findName (makeArgList args) name = .ok (firstNamed args name) := by
  unfold findName
  rw [initMap_eq]
  show Except.ok ((insertAll [] args).lookup name) = _
  rw [lookup_insertAll]
  rfl

theorem doGetArg_eq (args : List Passed) (i : Nat) :
    doGetArg (makeArgList args) i = match args[i]? with
      | some a => .ok a.value
      | none => .error (.format (ch! "argument index out of range")) := by
  unfold doGetArg
  rw [get_eq]
  cases args[i]? with
  | none => rfl
  | some a => cases a <;> rfl

end Blackhole.FmtArgs
