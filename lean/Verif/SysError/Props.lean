import Verif.SysError.Spec
import Verif.Buffer.Props
import Verif.FmtStream.Props

/-! # System errors: C94 -/

namespace Blackhole.SysError
open Buffer (Buf Good inlineSize read_good)
open FmtStream (numeral)

/-! ## Writes -/

theorem append_room (b : Buf) (room : Bool) (s : Str) (h : (b.size + s.length) % 2 ^ 64 ≤ b.capacity) :
    b.append room s = b.append true s := by
  unfold Buf.append
  simp only [if_neg (Nat.not_lt.2 h)]

theorem region_room (b : Buf) (room : Bool) (s : Str) (h : (b.size + s.length) % 2 ^ 64 ≤ b.capacity) :
    b.region room s = b.region true s := by
  unfold Buf.region Buf.resize
  simp only [if_neg (Nat.not_lt.2 h)]

theorem append_ok {b : Buf} {T : Str} (g : Good b T) (s : Str) (hs : T.length + s.length < 2 ^ 62) :
    ∃ b', b.append true s = .ok b' ∧ Good b' (T ++ s) := by
  rcases Buffer.op_spec g (.append true s) (by simp only [Buffer.Op.Sane]; omega) with ⟨_, h⟩ | h
  · rcases h with h | h
    · cases h
    · omega
  · exact h

theorem region_ok {b : Buf} {T : Str} (g : Good b T) (s : Str) (hs : T.length + s.length < 2 ^ 62) :
    ∃ b', b.region true s = .ok b' ∧ Good b' (T ++ s) := by
  rcases Buffer.op_spec g (.region true s) (by simp only [Buffer.Op.Sane]; omega) with ⟨_, h⟩ | h
  · rcases h with h | h
    · cases h
    · omega
  · exact h

/-- What fits into 500 characters is written whether there is memory or not. -/
theorem append_fits {b : Buf} {T : Str} (g : Good b T) (room : Bool) (s : Str) (hs : T.length + s.length ≤ 500) :
    ∃ b', b.append room s = .ok b' ∧ Good b' (T ++ s) := by
  have hm := g.min
  have : inlineSize = 500 := rfl
  rw [append_room b room s (by rw [g.size, Nat.mod_eq_of_lt (by omega)]; omega)]
  exact append_ok g s (by omega)

theorem append_cap {b b' : Buf} {T : Str} (g : Good b T) (room : Bool) (s : Str) (hs : T.length + s.length ≤ 500)
    (e : b.append room s = .ok b') : b'.capacity = b.capacity := by
  have hm := g.min
  have hI : inlineSize = 500 := rfl
  have hmod : (b.size + s.length) % 2 ^ 64 ≤ b.capacity := by rw [g.size, Nat.mod_eq_of_lt (by omega)]; omega
  obtain ⟨b1, e1, _, _, hc, _⟩ := Buffer.copyTo_spec s b b.size (by rw [g.size, g.arr]; omega)
  unfold Buf.append at e
  simp only [if_neg (Nat.not_lt.2 hmod), bind, Except.bind, e1, Except.ok.injEq] at e
  rw [← e]
  exact hc

theorem region_fits {b : Buf} {T : Str} (g : Good b T) (room : Bool) (s : Str) (hs : T.length + s.length ≤ 500) :
    ∃ b', b.region room s = .ok b' ∧ Good b' (T ++ s) := by
  have hm := g.min
  have : inlineSize = 500 := rfl
  rw [region_room b room s (by rw [g.size, Nat.mod_eq_of_lt (by omega)]; omega)]
  exact region_ok g s (by omega)

/-! ## The number -/

theorem ten_digits {n : Nat} (h1 : 2 ^ 31 ≤ n) (h2 : n < 2 ^ 32) : (Nat.toDigits 10 n).length = 10 :=
  Fmt.length_toDigits_eq (k := 9) (by omega) (fun _ => by omega)

theorem codeSize_eq {code : Int} (h : IsInt code) :
    codeSize code = .ok (if 0 ≤ code then (numeral 10 code).length else 10) := by
  obtain ⟨h1, h2⟩ := h
  unfold codeSize
  rw [Fmt.countDigits32 _ (by omega)]
  simp only [Except.ok.injEq]
  split
  · rename_i h0
    have : (code % 2 ^ 32).toNat = code.natAbs := by omega
    rw [this, numeral, if_neg (by omega)]
    rfl
  · exact ten_digits (by omega) (by omega)

theorem numeral_length {code : Int} (h : IsInt code) :
    (numeral 10 code).length ≤ 11 ∧ 1 ≤ (numeral 10 code).length ∧ (0 ≤ code → (numeral 10 code).length ≤ 10)
      ∧ (-10 ^ 9 < code → (numeral 10 code).length ≤ 10) ∧ (code ≤ -10 ^ 9 → (numeral 10 code).length = 11) := by
  obtain ⟨h1, h2⟩ := h
  have hpos : 0 < (Nat.toDigits 10 code.natAbs).length := Nat.length_toDigits_pos
  have h10 : (Nat.toDigits 10 code.natAbs).length ≤ 10 :=
    (Nat.length_toDigits_le_iff (by omega) (by omega)).2 (by omega)
  unfold numeral
  refine ⟨?_, ?_, ?_, ?_, ?_⟩
  · split <;> simp <;> omega
  · simp; omega
  · intro h; rw [if_neg (by omega)]; simpa using h10
  · intro h
    split
    · have : (Nat.toDigits 10 code.natAbs).length ≤ 9 :=
        (Nat.length_toDigits_le_iff (by omega) (by omega)).2 (by omega)
      simp; omega
    · simpa using h10
  · intro h
    have h10' : (Nat.toDigits 10 code.natAbs).length = 9 + 1 :=
      Fmt.length_toDigits_eq (k := 9) (by omega) (fun _ => by omega)
    rw [if_pos (by omega)]
    simp [h10']

theorem stream_code {code : Int} (h : IsInt code) : FmtStream.stream .int code = .ok (numeral 10 code) :=
  FmtStream.C92_stream .int code h

theorem good_clear {b : Buf} {T : Str} (g : Good b T) : Good { b with size := 0 } [] :=
  ⟨g.arr, rfl, Nat.zero_le _, rfl, g.cap, g.inl, g.fits, g.min⟩

/-- `format_error_code` without the message. -/
theorem tail_spec {b : Buf} {T : Str} (g : Good b T) (room : Nat → Bool) {code : Int} (hc : IsInt code)
    (hfit : (T ++ bare code).length ≤ 500) :
    ∃ b', (do
      let out ← must (b.append (room 2) (ch! "error "))
      let out ← writeCode (room 3) code out
      if out.size ≤ inlineSize then .ok out else .error .assertion : Except Fail Buf) = .ok b'
      ∧ Good b' (T ++ bare code) := by
  simp only [bare, List.length_append] at hfit
  obtain ⟨b1, e1, g1⟩ := append_fits g (room 2) (ch! "error ") (by omega)
  obtain ⟨b2, e2, g2⟩ := region_fits g1 (room 3) (numeral 10 code) (by simp only [List.length_append]; omega)
  refine ⟨b2, ?_, by simpa [bare] using g2⟩
  have hsz : b2.size ≤ inlineSize := by
    rw [g2.size]
    simp only [List.length_append]
    have : inlineSize = 500 := rfl
    omega
  simp only [e1, must, bind, Except.bind, writeCode, stream_code hc, e2, if_pos hsz]

theorem bare_length {code : Int} (hc : IsInt code) : (bare code).length ≤ 17 := by
  have := (numeral_length hc).1
  simp only [bare, List.length_append, List.length_cons, List.length_nil]
  omega

/-- `format_error_code`. -/
theorem errorCode_spec {b : Buf} {T : Str} (g : Good b T) (room : Nat → Bool) {code : Int} (hc : IsInt code) (message : Str)
    (hne : ¬ (code ≤ -10 ^ 9 ∧ message.length = 482)) :
    ∃ b', formatErrorCode room code message b = .ok b' ∧ Good b' (fallback code message) := by
  have gc := good_clear g
  have hb := bare_length hc
  obtain ⟨n1, n2, n3, n4, n5⟩ := numeral_length hc
  have hI : inlineSize = 500 := rfl
  have hnum : (numbered message code).length = message.length + 8 + (numeral 10 code).length := by
    simp only [numbered, described, List.length_append, List.length_cons, List.length_nil]; omega
  have hkeep : ∀ n, (if 0 ≤ code then (numeral 10 code).length else 10) = n →
      ((message.length ≤ inlineSize - (2 + 6 + n)) ↔ fallback code message = numbered message code
        ∧ message.length ≤ inlineSize - (2 + 6 + n)) := by
    intro n hn
    constructor
    · intro h
      refine ⟨?_, h⟩
      unfold fallback
      split
      · rename_i h0
        rw [if_pos h0] at hn
        rw [if_pos (by omega)]
      · rename_i h0
        rw [if_neg h0] at hn
        rw [if_pos (by omega)]
    · exact fun h => h.2
  unfold formatErrorCode
  rw [codeSize_eq hc]
  simp only [bind, Except.bind]
  generalize hn : (if 0 ≤ code then (numeral 10 code).length else 10) = n at *
  by_cases hk : message.length ≤ inlineSize - (2 + 6 + n)
  · have hfb := ((hkeep n rfl).1 hk).1
    have hle : message.length + 8 + (numeral 10 code).length ≤ 500 := by
      by_cases h0 : 0 ≤ code
      · rw [if_pos h0] at hn; omega
      · rw [if_neg h0] at hn
        by_cases h9 : -10 ^ 9 < code
        · have := n4 h9; omega
        · have : ¬ message.length = 482 := fun h => hne ⟨by omega, h⟩
          omega
    rw [if_pos hk]
    obtain ⟨b1, e1, g1⟩ := append_fits gc (room 0) message (by simp only [List.length_nil]; omega)
    obtain ⟨b2, e2, g2⟩ := append_fits g1 (room 1) (ch! ": ") (by
      simp only [List.length_append, List.length_nil, List.length_cons]; omega)
    obtain ⟨b3, e3, g3⟩ := tail_spec g2 room hc (by
      simp only [bare, List.length_append, List.length_nil, List.length_cons]; omega)
    refine ⟨b3, ?_, ?_⟩
    · have m : ∀ b : Buf, must (.ok b) = .ok b := fun _ => rfl
      simp only [e1, e2, m]
      simpa only [bind, Except.bind] using e3
    · rw [hfb]
      simpa [numbered, described, bare] using g3
  · have hfb : fallback code message = bare code := by
      unfold fallback
      split
      · rename_i h0
        rw [if_pos h0] at hn
        have := n3 h0
        rw [if_neg (by omega)]
      · rename_i h0
        rw [if_neg h0] at hn
        rw [if_neg (by omega)]
    rw [if_neg hk]
    obtain ⟨b3, e3, g3⟩ := tail_spec gc room hc (by simp only [List.nil_append]; omega)
    refine ⟨b3, ?_, ?_⟩
    · simpa only [bind, Except.bind] using e3
    · rw [hfb]
      simpa using g3

/-! ## The loop -/

theorem search_not_stuck (strerror : Nat → Reply) (room : Nat → Bool) : ∀ (fuel size : Nat), 0 < size →
    2 ^ 63 ≤ size * 2 ^ fuel → search strerror room fuel size ≠ .stuck ∨ 2 ^ 63 ≤ size := by
  intro fuel
  induction fuel with
  | zero => intro size _ h; right; omega
  | succ fuel ih =>
    intro size h0 h
    left
    unfold search
    split
    · simp
    · simp
    · split
      · rename_i hr
        rcases ih (size * 2) (by omega) (by rw [Nat.pow_succ] at h; rw [Nat.mul_assoc, Nat.mul_comm 2]; exact h) with h | h
        · exact h
        · omega
      · simp

theorem search_text {strerror : Nat → Reply} {room : Nat → Bool} : ∀ {fuel size : Nat} {s : Str},
    search strerror room fuel size = .text s → ∃ n, size ≤ n ∧ strerror n = .text s := by
  intro fuel
  induction fuel with
  | zero => intro size s h; cases h
  | succ fuel ih =>
    intro size s h
    unfold search at h
    split at h
    · rename_i s' hs
      cases h
      exact ⟨size, Nat.le_refl _, hs⟩
    · cases h
    · split at h
      · obtain ⟨n, hn, e⟩ := ih h
        exact ⟨n, by omega, e⟩
      · cases h

/-- If the text is found in every array that is large enough, it is found. -/
theorem search_found {strerror : Nat → Reply} {room : Nat → Bool} (hroom : ∀ k, room k = true) {s : Str} (L : Nat)
    (hL : L < 2 ^ 62) (hs : ∀ n, 500 ≤ n → L ≤ n → strerror n = .text s)
    (hr : ∀ n, 500 ≤ n → n < L → strerror n = .text s ∨ strerror n = .range) :
    ∀ (fuel size : Nat), 500 ≤ size → 2 ^ 63 ≤ size * 2 ^ fuel → size < 2 ^ 63 →
      search strerror room fuel size = .text s := by
  intro fuel
  induction fuel with
  | zero => intro size _ h h'; omega
  | succ fuel ih =>
    intro size h0 h h'
    unfold search
    by_cases hl : L ≤ size
    · rw [hs size h0 hl]
    · rcases hr size h0 (by omega) with e | e
      · rw [e]
      · rw [e]
        simp only
        rw [if_pos ⟨hroom _, by omega⟩]
        exact ih (size * 2) (by omega) (by rw [Nat.pow_succ] at h; rw [Nat.mul_assoc, Nat.mul_comm 2]; exact h) (by omega)

/-! ## The whole -/

theorem writeMessage_spec {b : Buf} (g : Good b []) (room : Nat → Bool) (message s : Str)
    (hlen : message.length + 2 + s.length < 2 ^ 62) :
    (∃ b', writeMessage room message s b = .ok (b', true) ∧ Good b' (described message s))
    ∨ (¬ (room 0 = true ∧ room 1 = true ∧ room 2 = true)
      ∧ ∃ b' T, writeMessage room message s b = .ok (b', false) ∧ Good b' T) := by
  have step : ∀ {b : Buf} {T : Str} (_ : Good b T) (k : Nat) (x : Str), T.length + x.length < 2 ^ 62 →
      (∃ b', try_ (b.append (room k) x) b = .ok (b', true) ∧ Good b' (T ++ x))
      ∨ (room k = false ∧ try_ (b.append (room k) x) b = .ok (b, false)) := by
    intro b T g k x hx
    rcases Buffer.op_spec g (.append (room k) x) (by simp only [Buffer.Op.Sane]; omega) with ⟨h1, h2⟩ | ⟨b', h, g'⟩
    · right
      have h1' : b.append (room k) x = .error .alloc := h1
      refine ⟨?_, by rw [h1']; rfl⟩
      rcases h2 with h | h
      · exact h
      · omega
    · left
      have h' : b.append (room k) x = .ok b' := h
      exact ⟨b', by rw [h']; rfl, g'⟩
  unfold writeMessage
  rcases step g 0 message (by simp only [List.length_nil]; omega) with ⟨b1, e1, g1⟩ | ⟨h1, e1⟩
  · rcases step g1 1 (ch! ": ") (by simp only [List.length_append, List.length_nil, List.length_cons]; omega) with
      ⟨b2, e2, g2⟩ | ⟨h2, e2⟩
    · rcases step g2 2 s (by simp only [List.length_append, List.length_nil, List.length_cons]; omega) with
        ⟨b3, e3, g3⟩ | ⟨h3, e3⟩
      · left
        refine ⟨b3, ?_, by simpa [described] using g3⟩
        simp only [e1, e2, e3, bind, Except.bind]
        rfl
      · right
        refine ⟨fun h => by simp [h3] at h, b2, _, ?_, g2⟩
        simp only [e1, e2, e3, bind, Except.bind]
        rfl
    · right
      refine ⟨fun h => by simp [h2] at h, b1, _, ?_, g1⟩
      simp only [e1, e2, bind, Except.bind]
      rfl
  · right
    refine ⟨fun h => by simp [h1] at h, b, _, ?_, g⟩
    simp only [e1, bind, Except.bind]
    rfl

/-- Texts that fit the address space. -/
def Sane (strerror : Nat → Reply) : Prop := ∀ n s, strerror n = .text s → s.length < 2 ^ 61

theorem spec (strerror : Nat → Reply) (hs : Sane strerror) (mem : Memory) {code : Int} (hc : IsInt code) (message : Str)
    (hm : message.length < 2 ^ 60) (hne : ¬ (code ≤ -10 ^ 9 ∧ message.length = 482)) :
    ∃ b T, formatSystemError strerror mem code message Buf.init = .ok b ∧ Good b T
      ∧ ((∃ n s, 500 ≤ n ∧ strerror n = .text s ∧ T = described message s) ∨ T = fallback code message) := by
  have hns : search strerror mem.loop 64 inlineSize ≠ .stuck := by
    rcases search_not_stuck strerror mem.loop 64 inlineSize (by decide) (by decide) with h | h
    · exact h
    · exact absurd h (by decide)
  unfold formatSystemError
  cases hsr : search strerror mem.loop 64 inlineSize with
  | stuck => exact absurd hsr hns
  | nothing =>
    obtain ⟨b, e, g⟩ := errorCode_spec Good.init mem.short hc message hne
    exact ⟨b, _, e, g, .inr rfl⟩
  | text s =>
    obtain ⟨n, hn, e⟩ := search_text hsr
    have hsl := hs n s e
    rcases writeMessage_spec Good.init mem.full message s (by omega) with ⟨b, eb, g⟩ | ⟨_, b, T, eb, g⟩
    · simp only [eb]
      exact ⟨b, _, rfl, g, .inl ⟨n, s, hn, e, rfl⟩⟩
    · simp only [eb]
      obtain ⟨b', e', g'⟩ := errorCode_spec g mem.short hc message hne
      exact ⟨b', _, e', g', .inr rfl⟩

theorem make_of {strerror : Nat → Reply} {mem : Memory} {code : Int} {message : Str} {b : Buf} {T : Str}
    (e : formatSystemError strerror mem code message Buf.init = .ok b) (g : Good b T) :
    SystemError.make strerror mem code message = .ok { code := code, what := T }
      ∧ report strerror mem code message = .ok (T ++ ['\n']) := by
  unfold SystemError.make report textOf
  simp only [e, bind, Except.bind, read_good g, must, and_self]

/-! ## Theorems -/

/-- Whatever the C library says about an error code and wherever memory runs out: a `SystemError` has the code and a
description, which is the message with a text that the C library gave, or the message with the number (the number
alone, if that is too long); `report_system_error` writes the same and a newline. Not covered: codes of a billion and
more below zero together with messages of exactly 482 characters. -/
theorem C94_always_partial (strerror : Nat → Reply) (hs : Sane strerror) (mem : Memory) (code : Int) (hc : IsInt code)
    (message : Str) (hm : message.length < 2 ^ 60) (hne : ¬ (code ≤ -10 ^ 9 ∧ message.length = 482)) :
    ∃ what, SystemError.make strerror mem code message = .ok { code := code, what := what }
      ∧ report strerror mem code message = .ok (what ++ ['\n'])
      ∧ ((∃ n s, 500 ≤ n ∧ strerror n = .text s ∧ what = described message s) ∨ what = fallback code message) := by
  obtain ⟨b, T, e, g, h⟩ := spec strerror hs mem hc message hm hne
  exact ⟨T, (make_of e g).1, (make_of e g).2, h⟩

theorem enough_of {strerror : Nat → Reply} {mem : Memory} (hmem : mem.Enough) (code : Int) (message s : Str)
    (hlen : message.length + 2 + s.length < 2 ^ 62) (hf : search strerror mem.loop 64 inlineSize = .text s) :
    SystemError.make strerror mem code message = .ok { code := code, what := described message s }
      ∧ report strerror mem code message = .ok (described message s ++ ['\n']) := by
  rcases writeMessage_spec Good.init mem.full message s hlen with ⟨b, eb, g⟩ | ⟨h, _⟩
  · apply make_of (b := b) _ g
    unfold formatSystemError
    simp only [hf, eb]
  · exact absurd ⟨(hmem 0).2.1, (hmem 1).2.1, (hmem 2).2.1⟩ h

/-- With memory, the text of the C library is there in full, however long it is: if the C library keeps it or writes it
into the array it is given (GNU), ... -/
theorem C94_gnu (inBuffer : Bool) (system : Str) (hl : system.length < 2 ^ 61) (mem : Memory) (hmem : mem.Enough)
    (code : Int) (message : Str) (hm : message.length < 2 ^ 60) :
    SystemError.make (gnu inBuffer system) mem code message = .ok { code := code, what := described message system }
      ∧ report (gnu inBuffer system) mem code message = .ok (described message system ++ ['\n']) := by
  apply enough_of hmem code message system (by omega)
  apply search_found (fun k => (hmem k).1) (system.length + 2) (by omega)
  · intro n h1 h2
    unfold gnu
    split
    · rw [List.take_of_length_le (by omega), if_neg (by omega)]
    · rfl
  · intro n h1 h2
    unfold gnu
    split
    · rename_i hb
      right
      rw [if_pos (by rw [List.length_take]; omega)]
    · left; rfl
  · decide
  · decide
  · decide

/-- ... and if it refuses an array that is too small (XSI). -/
theorem C94_xsi (system : Str) (hl : system.length < 2 ^ 61) (mem : Memory) (hmem : mem.Enough)
    (code : Int) (message : Str) (hm : message.length < 2 ^ 60) :
    SystemError.make (xsi true system) mem code message = .ok { code := code, what := described message system }
      ∧ report (xsi true system) mem code message = .ok (described message system ++ ['\n']) := by
  apply enough_of hmem code message system (by omega)
  apply search_found (fun k => (hmem k).1) (system.length + 1) (by omega)
  · intro n h1 h2
    simp only [xsi, if_true]
    rw [if_pos h2]
  · intro n h1 h2
    right
    simp only [xsi, if_true]
    rw [if_neg (by omega)]
  · decide
  · decide
  · decide

/-- Without any memory to be had, a description of at most 500 characters is still complete. -/
theorem C94_no_memory (system : Str) (mem : Memory) (code : Int) (message : Str)
    (hfit : (described message system).length ≤ 500) :
    SystemError.make (gnu false system) mem code message = .ok { code := code, what := described message system } := by
  simp only [described, List.length_append, List.length_cons, List.length_nil] at hfit
  obtain ⟨b1, e1, g1⟩ := append_fits Good.init (mem.full 0) message (by simp only [List.length_nil]; omega)
  obtain ⟨b2, e2, g2⟩ := append_fits g1 (mem.full 1) (ch! ": ") (by
    simp only [List.length_append, List.length_nil, List.length_cons]; omega)
  obtain ⟨b3, e3, g3⟩ := append_fits g2 (mem.full 2) system (by
    simp only [List.length_append, List.length_nil, List.length_cons]; omega)
  refine (make_of (b := b3) (T := described message system) ?_ (by simpa [described] using g3)).1
  unfold formatSystemError
  have hsr : search (gnu false system) mem.loop 64 inlineSize = .text system := rfl
  simp only [hsr]
  have hw : writeMessage mem.full message system Buf.init = .ok (b3, true) := by
    unfold writeMessage
    simp only [e1, e2, e3, try_, bind, Except.bind]
    rfl
  simp only [hw]

/-- Where the C library knows no text, the number is reported, with the message if the whole fits 500 characters. -/
theorem C94_unknown (mem : Memory) (system : Str) (code : Int) (hc : 0 ≤ code) (hc' : code < 2 ^ 31) (message : Str) :
    SystemError.make (xsi false system) mem code message = .ok
      { code := code
        what := if (numbered message code).length ≤ 500 then numbered message code else bare code } := by
  obtain ⟨b, e, g⟩ := errorCode_spec Good.init mem.short (code := code) ⟨by omega, hc'⟩ message (by omega)
  have := (make_of (strerror := xsi false system) (mem := mem) (b := b) e g).1
  rw [this]
  unfold fallback
  rw [if_pos hc]

/-- A code of a billion or more below zero has eleven characters, of which ten are counted: with a message of 482
characters the description has 501, and the assertion that there are at most 500 fails; if there is no memory for the
last one, the process is terminated. -/
theorem C94_fails_long (system : Str) (code : Int) (hc : -2 ^ 31 ≤ code) (hb : code ≤ -10 ^ 9) (message : Str)
    (hm : message.length = 482) (mem : Memory) :
    SystemError.make (xsi false system) mem code message
      = .error (if mem.short 3 then .assertion else .terminate) := by
  have hI : IsInt code := ⟨hc, by omega⟩
  have hn := (numeral_length hI).2.2.2.2 hb
  have hi : inlineSize = 500 := rfl
  obtain ⟨b1, e1, g1⟩ := append_fits (good_clear Good.init) (mem.short 0) message (by simp only [List.length_nil]; omega)
  obtain ⟨b2, e2, g2⟩ := append_fits g1 (mem.short 1) (ch! ": ") (by
    simp only [List.length_append, List.length_nil, List.length_cons]; omega)
  obtain ⟨b3, e3, g3⟩ := append_fits g2 (mem.short 2) (ch! "error ") (by
    simp only [List.length_append, List.length_nil, List.length_cons]; omega)
  have hsz : b3.size = 490 := by
    rw [g3.size]; simp only [List.length_append, List.length_nil, List.length_cons]; omega
  have key : formatSystemError (xsi false system) mem code message Buf.init
      = .error (if mem.short 3 then .assertion else .terminate) := by
    have : formatSystemError (xsi false system) mem code message Buf.init
        = formatErrorCode mem.short code message Buf.init := rfl
    rw [this]
    unfold formatErrorCode
    rw [codeSize_eq hI, if_neg (by omega)]
    simp only [bind, Except.bind]
    rw [if_pos (by omega)]
    simp only [e1, e2, e3, must, writeCode, stream_code hI]
    cases hr : mem.short 3 with
    | true =>
      obtain ⟨b4, e4, g4⟩ := region_ok g3 (numeral 10 code) (by
        simp only [List.length_append, List.length_nil, List.length_cons]; omega)
      simp only [e4, if_true]
      rw [if_neg]
      rw [g4.size]
      simp only [List.length_append, List.length_nil, List.length_cons]; omega
    | false =>
      have hcap : b3.capacity = 500 := by
        have c1 := append_cap (good_clear Good.init) (mem.short 0) message (by simp only [List.length_nil]; omega) e1
        have c2 := append_cap g1 (mem.short 1) (ch! ": ") (by
          simp only [List.length_append, List.length_nil, List.length_cons]; omega) e2
        have c3 := append_cap g2 (mem.short 2) (ch! "error ") (by
          simp only [List.length_append, List.length_nil, List.length_cons]; omega) e3
        rw [c3, c2, c1]
        rfl
      have : b3.region false (numeral 10 code) = .error .alloc := by
        unfold Buf.region Buf.resize
        rw [hsz, hn]
        simp only [bind, Except.bind]
        rw [if_pos (by omega)]
        rfl
      simp only [this, Bool.false_eq_true, if_false]
  unfold SystemError.make
  rw [key]
  rfl

/-! Cases that meet the hypotheses. -/

def noMemory : Memory := ⟨fun _ => false, fun _ => false, fun _ => false⟩

example : SystemError.make (gnu false (ch! "No such file or directory")) noMemory 2 (ch! "cannot open 'x'")
    = .ok { code := 2, what := ch! "cannot open 'x': No such file or directory" } :=
  C94_no_memory _ _ _ _ (by decide)

example : SystemError.make (xsi false []) noMemory 12345 (ch! "oops") = .ok { code := 12345, what := ch! "oops: error 12345" } := by
  rw [C94_unknown noMemory [] 12345 (by decide) (by decide)]
  rw [if_pos (by decide)]
  rfl

example : Sane (xsi true (ch! "text")) ∧ IsInt (-2147483648) ∧ (List.replicate 482 'a').length = 482 := by
  refine ⟨?_, by unfold IsInt; omega, List.length_replicate ..⟩
  intro n s h
  simp only [xsi, if_true] at h
  split at h
  · cases h; decide
  · cases h

end Blackhole.SysError
