import Verif.FmtArgs.Plain
import Verif.FmtArgs.Pieces
import Verif.Fmt.Props

/-! # C75 Arguments of messages -/

namespace Blackhole.FmtArgs

open Fmt (Err Spec SpecText Arg)

/-! ## Any number of arguments -/

/-- However many arguments a call has, and whatever they are, each position holds the argument that was passed there;
positions behind the last one hold nothing. Nothing that was not written is read, and no value is read as another type. -/
theorem C75_positions (args : List Passed) (i : Nat) : (makeArgList args).get i = .ok args[i]? := get_eq args i

/-- The arguments of a name are found in the same way; the first one of a name counts. -/
theorem C75_names (args : List Passed) (name : Str) :
    findName (makeArgList args) name = .ok (firstNamed args name) := findName_eq args name

/-- 15, 16 and 17 arguments are stored in three different ways. -/
example :
    let args (n : Nat) := List.replicate n (Passed.val (.arg (.int 7))) ++ [.named (ch! "x") (.arg (.int 8))]
    (∃ l, (makeArgList (args 14)).store = .values l ∧ l.length = 15)
    ∧ (∃ l, (makeArgList (args 15)).store = .args l ∧ l.map (·.type) = List.replicate 16 none ++ [some 0])
    ∧ (∃ l, (makeArgList (args 16)).store = .args l ∧ l.map (·.type) = List.replicate 16 (some 2) ++ [some 1, some 0])
    ∧ findName (makeArgList (args 14)) (ch! "x") = .ok (some (.arg (.int 8)))
    ∧ findName (makeArgList (args 15)) (ch! "x") = .ok (some (.arg (.int 8)))
    ∧ findName (makeArgList (args 16)) (ch! "x") = .ok (some (.arg (.int 8))) := by
  refine ⟨⟨_, rfl, rfl⟩, ⟨_, rfl, rfl⟩, ⟨_, rfl, rfl⟩, ?_, ?_, ?_⟩ <;> rw [C75_names] <;> rfl

/-! ## Whole format strings -/

/-- A format string whose fields have numbers, names or nothing is expanded by its arguments: text as it is, each field
replaced by the value of the argument it means. An object of a user type is written as the string that it prints, a
pointer as its address in hexadecimal. A name that no argument has and a number of no argument are errors. -/
theorem C75_expand (fd : Spec → Nat → Except Err Str) (args : List Passed) (hr : ∀ a ∈ args, a.value.InRange)
    (ps : List Piece) (manual : Bool) (hw : WellFormed ps) (hs : Suits args 0 ps) (hm : Chosen manual ps) :
    format fd (printAll ps) args = expand fd args 0 ps := by
  unfold format
  rw [Config.cstr_plain (printAll_no_nul ps hw)]
  refine formatLoop_pieces fd args hr manual ps 0 (some 0) hw hs hm ?_ _ (Nat.le_refl _)
  unfold Fmt.NextAt
  cases manual <;> simp

theorem ident_example : Ident (ch! "user_1") := by
  refine ⟨by simp, ?_, ?_⟩
  · intro c hc
    simp only [List.mem_cons, List.not_mem_nil, or_false] at hc
    rcases hc with rfl | rfl | rfl | rfl | rfl | rfl <;> decide
  · rintro c ⟨⟩; decide

example (fd : Spec → Nat → Except Err Str) :
    let t : SpecText := { width := some 6 }
    let ps := [Piece.field (.name (ch! "user_1")) (some t), .text (ch! "{"), .field (.index 1) none, .field (.index 0) none]
    let args := [Passed.val (.ptr 255), .named (ch! "user_1") (.custom (ch! "bob")), .named (ch! "user_1") (.custom (ch! "eve"))]
    printAll ps = ch! "{user_1:6}{{{1}{0}"
      ∧ format fd (printAll ps) args = .ok (ch! "bob   {bob0xff") := by
  intro t ps args
  refine ⟨rfl, ?_⟩
  rw [C75_expand fd args ?_ ps true ?_ ?_ ?_]
  · rfl
  · intro a ha
    simp only [args, List.mem_cons, List.not_mem_nil, or_false] at ha
    rcases ha with rfl | rfl | rfl
    · exact (by decide : 255 < 2 ^ 64)
    · trivial
    · trivial
  · refine ⟨ident_example, ?_, ?_, (by decide : 1 < 2 ^ 31), by simp, (by decide : 0 < 2 ^ 31), by simp, trivial⟩
    · rintro u ⟨⟩
      refine ⟨?_, ?_, ?_, ?_, ?_, ?_, ?_⟩ <;> simp [t, SpecText.print]
    · decide
  · refine ⟨?_, ?_, ?_, trivial⟩
    · intro v u hv hu
      cases hv
      cases hu
      refine ⟨?_, ?_, ?_⟩ <;> simp [t]
    · intro v u _ hu; cases hu
    · intro v u _ hu; cases hu
  · exact ⟨rfl, rfl, rfl, trivial⟩

/-- For arguments without names, whatever the format string is, objects of user types are the same as the strings that
they print: as the argument of a field and where a width or a precision is expected, in the output and in the errors. -/
theorem C75_user_types (fd : Spec → Nat → Except Err Str) (pattern : Str) (args : List Passed) (as : List Arg)
    (h : args.map Passed.known = as.map some) : format fd pattern args = Fmt.format fd pattern as := by
  unfold format Fmt.format
  exact formatLoop_known h fd _ _ _

example (fd : Spec → Nat → Except Err Str) : format fd (ch! "{:>{}}") [.val (.custom (ch! "x")), .val (.arg (.int 3))]
    = .ok (ch! "  x") := by
  rw [C75_user_types fd _ _ [.str (ch! "x") ['\x00'], .int 3] rfl]
  rfl

/-- Fields with names and fields without numbers cannot be used together. -/
theorem C75_no_mixing (fd : Spec → Nat → Except Err Str) (a : Passed) (args : List Passed) (ha : a.value.InRange)
    (out : Str) (ho : written fd {} a.value = .ok out) (name : Str) (hn : Ident name) (rest : Str) (hr : '\x00' ∉ rest) :
    format fd ('{' :: '}' :: '{' :: (name ++ '}' :: rest)) (a :: args)
        = .error (.format (ch! "cannot switch from automatic to manual argument indexing"))
      ∧ (firstNamed (a :: args) name = some a.value →
        format fd ('{' :: (name ++ '}' :: '{' :: '}' :: rest)) (a :: args)
          = .error (.format (ch! "cannot switch from manual to automatic argument indexing"))) := by
  obtain ⟨c, cs, hcs, h1, h2⟩ := ident_cons hn
  have hnul := ident_no_nul hn
  have hfield := formatField_text fd (makeArgList (a :: args)) a.value ha
  constructor
  · have hc : '\x00' ∉ '{' :: '}' :: '{' :: (name ++ '}' :: rest) := by simp [hnul, hr]
    unfold format
    rw [Config.cstr_plain hc, List.length_cons, formatLoop, if_neg (by decide), if_neg (by simp [Fmt.peek]), if_neg (by decide)]
    have e1 := parseArg_auto (a :: args) 0 none ('{' :: (name ++ '}' :: rest))
    have e2 := hfield (some 1) none (by simp) (by simp) ('{' :: (name ++ '}' :: rest))
    rw [show Fmt.specTail none ('{' :: (name ++ '}' :: rest)) = '}' :: '{' :: (name ++ '}' :: rest) from rfl] at e1 e2
    rw [show Fmt.meaningOf none = {} from rfl, ho] at e2
    unfold field
    rw [e1]
    simp only [List.getElem?_cons_zero]
    rw [e2]
    simp only
    have hp : Fmt.peek (name ++ '}' :: rest) = c := by rw [hcs]; rfl
    rw [List.length_cons, formatLoop, if_neg (by decide), if_neg (by rw [hp]; rintro rfl; exact absurd h1 (by decide)),
      if_neg (by decide)]
    unfold field parseArg
    rw [hp, if_pos h1]
    rfl
  · intro hf
    have hc : '\x00' ∉ '{' :: (name ++ '}' :: '{' :: '}' :: rest) := by simp [hnul, hr]
    have hp : Fmt.peek (name ++ '}' :: '{' :: '}' :: rest) = c := by rw [hcs]; rfl
    unfold format
    rw [Config.cstr_plain hc, List.length_cons, formatLoop, if_neg (by decide), if_neg (by rw [hp]; rintro rfl; exact absurd h1 (by decide)),
      if_neg (by decide)]
    have e1 := parseArg_name (a :: args) (some 0) (.inl rfl) name hn none ('{' :: '}' :: rest)
    have e2 := hfield none none (by simp) (by simp) ('{' :: '}' :: rest)
    rw [show Fmt.specTail none ('{' :: '}' :: rest) = '}' :: '{' :: '}' :: rest from rfl] at e1 e2
    rw [show Fmt.meaningOf none = {} from rfl, ho] at e2
    unfold field
    rw [e1, hf]
    simp only
    rw [e2]
    simp only
    have hlen : ∃ k, (name ++ '}' :: '{' :: '}' :: rest).length = k + 1 := ⟨_, by
      rw [List.length_append, List.length_cons, ← Nat.add_assoc]⟩
    obtain ⟨k, hk⟩ := hlen
    rw [hk, formatLoop, if_neg (by decide), if_neg (by simp [Fmt.peek]), if_neg (by decide)]
    rfl

example (fd : Spec → Nat → Except Err Str) :
    format fd (ch! "{}{user_1}") [.named (ch! "user_1") (.arg (.int 1))]
      = .error (.format (ch! "cannot switch from automatic to manual argument indexing"))
    ∧ format fd (ch! "{user_1}{}") [.named (ch! "user_1") (.arg (.int 1))]
      = .error (.format (ch! "cannot switch from manual to automatic argument indexing")) := by
  have h := C75_no_mixing fd (.named (ch! "user_1") (.arg (.int 1))) [] trivial (ch! "1") rfl (ch! "user_1") ident_example [] (by simp)
  exact ⟨h.1, h.2 rfl⟩

/-! ## Values -/

theorem layout_plain (pre ds : Str) : Fmt.layout {} pre ds = pre ++ ds := by
  simp [Fmt.layout]

theorem written_int (fd : Spec → Nat → Except Err Str) (bits : Nat) (hb : bits = 32 ∨ bits = 64) (z : Int)
    (h1 : -2 ^ bits < z) (h2 : z < 2 ^ bits) : Fmt.writeInt bits false {} z = .ok (decimal z) := by
  rw [Fmt.writeInt_eq bits false hb {} z h1 h2]
  simp [Fmt.intDigits, layout_plain, decimal, Fmt.signText]

theorem bmod_small {z : Int} (h1 : -2 ^ 31 ≤ z) (h2 : z < 2 ^ 31) : wrap32 z = z := by
  unfold wrap32
  rw [Int.bmod_eq_of_le] <;> omega

/-- Every argument is written as its value, whatever its type is: integers of any width in decimal, characters and
strings as they are, objects as what they print. An enumerator or an object that converts to an integer is written as
that integer only if the integer fits an `int`. -/
theorem C75_value_partial (fd : Spec → Nat → Except Err Str) (c : CArg) (hv : c.Valid)
    (hc : ∀ z, c = .convertible z → -2 ^ 31 ≤ z ∧ z < 2 ^ 31) : format fd (ch! "{}") [.val (make c)] = c.text fd := by
  have hr : (make c).InRange := by
    cases c with
    | integer t z => cases t <;> trivial
    | uchar c => exact hv
    | pointer n => exact hv
    | _ => trivial
  have h := C75_expand fd [.val (make c)] (by simpa [Passed.value] using hr) [.field .auto none] false
    ⟨trivial, by simp, trivial⟩ ⟨by simp, trivial⟩ ⟨rfl, trivial⟩
  rw [show ch! "{}" = printAll [.field .auto none] from rfl, h]
  have e : expand fd [.val (make c)] 0 [.field .auto none] = written fd {} (make c) := by
    show (match written fd {} (make c) with
      | .error e => Except.error e
      | .ok out => (Except.ok ([] : Str) : Except Err Str).map (out ++ ·)) = _
    cases written fd {} (make c) with
    | error e => rfl
    | ok out => simp [Except.map]
  rw [e]
  cases c with
  | integer t z =>
    have hv : t.holds z := hv
    cases t
    all_goals
      simp only [IntType.holds] at hv
      simp only [make, written, Fmt.writeArg, CArg.text]
    · exact written_int fd 32 (.inl rfl) z (by omega) (by omega)
    · rw [show ((z.toNat : Nat) : Int) = z by omega]; exact written_int fd 32 (.inl rfl) z (by omega) (by omega)
    · exact written_int fd 32 (.inl rfl) z (by omega) (by omega)
    · rw [show ((z.toNat : Nat) : Int) = z by omega]; exact written_int fd 32 (.inl rfl) z (by omega) (by omega)
    · exact written_int fd 64 (.inr rfl) z (by omega) (by omega)
    · rw [show ((z.toNat : Nat) : Int) = z by omega]; exact written_int fd 64 (.inr rfl) z (by omega) (by omega)
    · exact written_int fd 64 (.inr rfl) z (by omega) (by omega)
    · rw [show ((z.toNat : Nat) : Int) = z by omega]; exact written_int fd 64 (.inr rfl) z (by omega) (by omega)
  | convertible z =>
    obtain ⟨h1, h2⟩ := hc z rfl
    simp only [make, written, Fmt.writeArg, CArg.text, bmod_small h1 h2]
    exact written_int fd 32 (.inl rfl) z (by omega) (by omega)
  | bool b => cases b <;> rfl
  | char c => rfl
  | schar c => rfl
  | uchar c => rfl
  | double bits => rfl
  | cstr s =>
    have hn : '\x00' ∉ s := hv
    simp only [make, written, CArg.text, Fmt.writeArg, Fmt.writeStr, Fmt.writeStr.go]
    have hcs : Config.cstr (s ++ ['\x00']) = s := by
      unfold Config.cstr
      rw [List.takeWhile_append_of_pos (by intro c hc; simp; rintro rfl; exact hn hc), List.takeWhile_cons_of_neg (by decide), List.append_nil]
    cases hs : s ++ ['\x00'] with
    | nil => simp at hs
    | cons x xs =>
      simp only
      rw [if_pos (by rw [← hs]; simp), ← hs, hcs]
      simp [Fmt.pad]
  | string s => cases s <;> simp [make, written, CArg.text, Fmt.writeArg, Fmt.writeStr, Fmt.writeStr.go, Fmt.pad, Config.cstr]
  | pointer n => simp [make, written, CArg.text, layout_plain, Fmt.layout]
  | printable s => cases s <;> simp [make, written, CArg.text, Fmt.writeArg, Fmt.writeStr, Fmt.writeStr.go, Fmt.pad, Config.cstr]

example (fd : Spec → Nat → Except Err Str) : format fd (ch! "{}") [.val (make (.integer .ulong (2 ^ 64 - 1)))]
    = .ok (ch! "18446744073709551615") := by
  rw [C75_value_partial fd (.integer .ulong (2 ^ 64 - 1)) (by simp [CArg.Valid, IntType.holds]) (by simp)]
  rfl

/-- What that leaves out: a counter of type `std::atomic<std::uint64_t>` converts to an integer of 64 bits, but 32 of
them are written: with 2^31 events counted the message has a negative number, with 2^32 it has 0. -/
theorem C75_fails_convertible (fd : Spec → Nat → Except Err Str) :
    (CArg.convertible (2 ^ 31)).Valid
    ∧ format fd (ch! "{}") [.val (make (.convertible (2 ^ 31)))] = .ok (ch! "-2147483648")
    ∧ format fd (ch! "{}") [.val (make (.convertible (2 ^ 32)))] = .ok (ch! "0")
    ∧ (CArg.convertible (2 ^ 31)).text fd = .ok (ch! "2147483648") := by
  refine ⟨by simp [CArg.Valid, IntType.holds], ?_, ?_, rfl⟩
  · have h := C75_value_partial fd (.convertible (-2 ^ 31)) (by simp [CArg.Valid, IntType.holds]) (by rintro z ⟨⟩; decide)
    have e : make (.convertible (2 ^ 31)) = make (.convertible (-2 ^ 31)) := rfl
    rw [e, h]
    rfl
  · have h := C75_value_partial fd (.convertible 0) (by simp [CArg.Valid, IntType.holds]) (by rintro z ⟨⟩; decide)
    have e : make (.convertible (2 ^ 32)) = make (.convertible 0) := rfl
    rw [e, h]
    rfl

/-- In general: what is written is the number that is congruent to the value modulo 2^32 and fits an `int`; so the
message is right for no value outside the range of `int`. -/
theorem C75_convertible (fd : Spec → Nat → Except Err Str) (z : Int) :
    format fd (ch! "{}") [.val (make (.convertible z))] = .ok (decimal (wrap32 z))
    ∧ -2 ^ 31 ≤ wrap32 z ∧ wrap32 z < 2 ^ 31 ∧ (2 ^ 32 : Int) ∣ z - wrap32 z := by
  have hl : -2 ^ 31 ≤ wrap32 z := by
    have := Int.le_bmod (x := z) (m := 2 ^ 32) (by decide)
    unfold wrap32; omega
  have hu : wrap32 z < 2 ^ 31 := by
    have := Int.bmod_lt (x := z) (m := 2 ^ 32) (by decide)
    unfold wrap32; omega
  refine ⟨?_, hl, hu, ?_⟩
  · have h := C75_value_partial fd (.convertible (wrap32 z)) (.inr ⟨by omega, by omega⟩) (by rintro _ ⟨⟩; exact ⟨hl, hu⟩)
    have e : make (.convertible z) = make (.convertible (wrap32 z)) := by
      simp only [make, bmod_small hl hu]
    rw [e, h]
    rfl
  · have := Int.bmod_emod (x := z) (m := 2 ^ 32)
    unfold wrap32
    have h2 : (z - Int.bmod z (2 ^ 32)) % (2 ^ 32 : Int) = 0 := by
      have h3 : Int.bmod z (2 ^ 32) % ((2 ^ 32 : Nat) : Int) = z % ((2 ^ 32 : Nat) : Int) := this
      omega
    exact Int.dvd_of_emod_eq_zero h2

end Blackhole.FmtArgs
