import Verif.Double.Place
import Verif.Double.Spec

namespace Blackhole.Double

open Fmt (Spec Align layout)
open Buffer (Buf Arr Good inlineSize)

/-- The text of the C library comes to stand behind the text of the buffer. -/
theorem attempt_place {spec : Spec} {sign : Option Char} {text : Str} {T : Str} (hlen : text.length < 2 ^ 31)
    (hT : T.length < 2 ^ 61) (fuel : Nat) {b : Buf} {rest : Arr} (h : Like b (T.map some ++ rest) T.length) {sl : Nat}
    (hsl : sl ≤ 1) (hr : sl ≤ rest.length) :
    ∃ b1 g z, attempt true spec sign text (T.length + sl) (fuel + 2) b = place true spec sign b1 (T.length + sl) text.length
      ∧ Like b1 (T.map some ++ g ++ text.map some ++ z) T.length ∧ g.length = sl
      ∧ rest.length ≤ sl + text.length + z.length
      ∧ (sl + text.length < rest.length → rest.length = sl + text.length + z.length) := by
  have one : ∀ (fuel : Nat) (b : Buf) (rest : Arr), Like b (T.map some ++ rest) T.length → sl + text.length < rest.length →
      ∃ b1 g z, attempt true spec sign text (T.length + sl) (fuel + 1) b = place true spec sign b1 (T.length + sl) text.length
      ∧ Like b1 (T.map some ++ g ++ text.map some ++ z) T.length ∧ g.length = sl
      ∧ rest.length = sl + text.length + z.length := by
    intro fuel b rest h hfit
    have hcap := h.cap
    simp only [List.length_append, List.length_map] at hcap
    have hlen2 : (text.take (b.capacity - (T.length + sl) - 1) ++ ['\x00']) = text ++ ['\x00'] := by
      rw [List.take_of_length_le (by omega)]
    have hs : T.map some ++ rest
        = (T.map some ++ rest.take sl) ++ (rest.drop sl).take (text.length + 1) ++ rest.drop (sl + (text.length + 1)) := by
      rw [List.append_assoc, List.append_assoc, ← List.drop_drop, List.take_append_drop, List.take_append_drop]
    rw [hs] at h
    obtain ⟨b1, e1, l1⟩ := h.copyTo (text ++ ['\x00']) (by simp; omega) (i := T.length + sl) (by simp; omega)
    refine ⟨b1, rest.take sl, some '\x00' :: rest.drop (sl + (text.length + 1)), ?_, by simpa using l1, by simp; omega,
      by simp; omega⟩
    have hcap1 : b1.capacity = b.capacity := by rw [l1.cap, hcap]; simp; omega
    unfold attempt
    rw [if_neg (by omega)]
    unfold snprintf
    rw [if_neg (by omega), if_neg (by omega), hlen2, e1]
    simp only [hcap1]
    rw [if_pos (by omega)]
  have hcap := h.cap
  simp only [List.length_append, List.length_map] at hcap
  by_cases hfit : sl + text.length < rest.length
  · obtain ⟨b1, g, z, e, l, hg, hz⟩ := one (fuel + 1) b rest h hfit
    exact ⟨b1, g, z, e, l, hg, by omega, fun _ => hz⟩
  · -- the first round fails and makes room
    have first : ∃ b0 rest0, snprintf b (T.length + sl) (b.capacity - (T.length + sl)) text = .ok (b0, some text.length)
        ∧ Like b0 (T.map some ++ rest0) T.length ∧ rest0.length = rest.length := by
      unfold snprintf
      rw [if_neg (by omega)]
      split
      · exact ⟨b, rest, rfl, h, rfl⟩
      · rename_i hne
        have hs : T.map some ++ rest = (T.map some ++ rest.take sl) ++ rest.drop sl ++ [] := by simp
        have h' := h
        rw [hs] at h'
        obtain ⟨b1, e1, l1⟩ := h'.copyTo (text.take (b.capacity - (T.length + sl) - 1) ++ ['\x00'])
          (by simp; omega) (i := T.length + sl) (by simp; omega)
        rw [e1]
        refine ⟨b1, rest.take sl ++ (text.take (b.capacity - (T.length + sl) - 1) ++ ['\x00']).map some, rfl, by simpa using l1, ?_⟩
        simp; omega
    obtain ⟨b0, rest0, e0, l0, hl0⟩ := first
    have hcap0 := l0.cap
    simp only [List.length_append, List.length_map] at hcap0
    obtain ⟨b2, rest2, e2, l2, hm, hle⟩ := l0.reserve (T.length + sl + text.length + 1) (by omega)
    obtain ⟨b1, g, z, e, l, hg, hz⟩ := one fuel b2 rest2 l2 (by omega)
    refine ⟨b1, g, z, ?_, l, hg, by omega, fun hh => absurd hh hfit⟩
    rw [← e]
    show attempt true spec sign text (T.length + sl) (fuel + 1 + 1) b = _
    conv => lhs; unfold attempt
    rw [if_neg (by omega), e0]
    simp only
    rw [if_neg (by omega), e2]

/-- A finite number. -/
theorem writeFinite_spec {lib : Libc} {spec : Spec} {sign : Option Char} {type : Char} {m : Nat} {b : Buf} {T : Str}
    (hg : Good b T) {d : Char} {ds : Str} (hbody : lib spec.hash spec.precision type m = d :: ds) (hd : d ≠ ' ')
    (hT : T.length < 2 ^ 61) (hw : spec.width < 2 ^ 31) (hlen : (d :: ds).length < 2 ^ 31)
    (hroom : spec.align = .center → sign.isSome ∨ T.length + spec.width ≤ b.capacity ∨ spec.width ≤ (d :: ds).length) :
    ∃ b', writeFinite lib true spec sign type m b = .ok b'
      ∧ Good b' (T ++ if spec.align = .left then sign.toList ++ (d :: ds) ++
            List.replicate (spec.width - (sign.toList.length + (d :: ds).length)) ' '
          else layout spec sign.toList (d :: ds)) := by
  obtain ⟨rest, hl, hrest⟩ := like_of_good hg
  -- the buffer after the reservation
  have hres : ∃ b0 rest0, (if sign.isSome then b.reserve true (b.size + max spec.width 1) else .ok b) = .ok b0
      ∧ Like b0 (T.map some ++ rest0) T.length ∧ sign.toList.length ≤ rest0.length
      ∧ (spec.align = .center → spec.width ≤ rest0.length ∨ spec.width ≤ sign.toList.length + (d :: ds).length) := by
    cases sign with
    | none =>
      refine ⟨b, rest, rfl, hl, by simp, fun hc => ?_⟩
      rcases hroom hc with h | h | h
      · cases h
      · left; omega
      · right; simp at h ⊢; omega
    | some c =>
      obtain ⟨b0, rest0, e, l, hm, _⟩ := hl.reserve (b.size + max spec.width 1) (by rw [hg.size]; omega)
      rw [hg.size] at hm
      exact ⟨b0, rest0, by simpa using e, l, by simp; omega, fun _ => .inl (by omega)⟩
  obtain ⟨b0, rest0, e0, l0, hs0, hc0⟩ := hres
  have hprint : printfWidth (spec.align = .left)
      (if spec.align = .center then 0 else if sign.isSome then spec.width - 1 else spec.width) (d :: ds)
      = printed spec sign (d :: ds) := rfl
  have hplen : (printed spec sign (d :: ds)).length < 2 ^ 31 := by
    have : printfW spec sign ≤ spec.width := by unfold printfW; split; omega; split <;> omega
    unfold printed printfWidth
    split <;> simp only [List.length_append, List.length_replicate] <;> omega
  have hoff : (if sign.isSome then b.size + 1 else b.size) = T.length + sign.toList.length := by
    rw [hg.size]; cases sign <;> simp
  obtain ⟨b1, g, z, e1, l1, hgl, hz, _⟩ := attempt_place (spec := spec) (sign := sign) hplen hT 198 l0
    (sl := sign.toList.length) (by cases sign <;> simp) hs0
  have hrun : writeFinite lib true spec sign type m b
      = place true spec sign b1 (T.length + g.length) (printed spec sign (d :: ds)).length := by
    rw [hgl, ← e1, ← hoff, ← hprint, ← hbody]
    unfold writeFinite
    simp only [bind, Except.bind]
    cases sign with
    | none => cases e0; rfl
    | some c =>
      simp only [Option.isSome_some, if_true] at e0 ⊢
      rw [e0]
  rw [hrun]
  cases ha : spec.align with
  | left => simpa [ha] using place_left ha hd hgl l1 true
  | right => simpa [ha] using place_front (.inl ha) hd hgl l1 true
  | default => simpa [ha] using place_front (.inr (.inl ha)) hd hgl l1 true
  | numeric => simpa [ha] using place_front (.inr (.inr ha)) hd hgl l1 true
  | center =>
    have hp : printed spec sign (d :: ds) = d :: ds := by unfold printed printfWidth printfW; simp [ha]
    have := place_center ha hd hgl l1 true (by
      rw [hp] at hz
      rcases hc0 ha with h | h
      · left; omega
      · exact .inr h)
    simpa [ha] using this

/-- `resize` in terms of the array: the text stays. -/
theorem resize_like {b : Buf} {T : Str} (hg : Good b T) (m : Nat) (hm : m < 2 ^ 62) :
    ∃ b' rest, b.resize true m = .ok b' ∧ Like b' (T.map some ++ rest) m ∧ m ≤ T.length + rest.length := by
  obtain ⟨rest, hl, hrest⟩ := like_of_good hg
  obtain ⟨b1, rest1, e, l, h1, _⟩ := hl.reserve m hm
  refine ⟨{ b1 with size := m }, rest1, ?_, ⟨l.arr, rfl, l.cap, l.lt, by simp; omega, l.inl, l.fits, l.min⟩, h1⟩
  unfold Buf.reserve at e
  unfold Buf.resize
  split at e
  · rename_i hh
    rw [if_pos hh, e]
  · rename_i hh
    cases e
    rw [if_neg hh]

theorem split3 (rest : Arr) (a c d : Nat) :
    rest = rest.take a ++ ((rest.drop a).take c ++ ((rest.drop (a + c)).take d ++ rest.drop (a + c + d))) := by
  rw [show rest.drop (a + c + d) = (rest.drop (a + c)).drop d by rw [List.drop_drop], List.take_append_drop,
    show rest.drop (a + c) = (rest.drop a).drop c by rw [List.drop_drop], List.take_append_drop, List.take_append_drop]

/-- Text in a field: `l` and `r` characters of padding. -/
theorem writeStr_spec {spec : Spec} {b : Buf} {T : Str} (hg : Good b T) (s : Str) (hT : T.length < 2 ^ 61)
    (hw : spec.width < 2 ^ 31) (hs : s.length < 2 ^ 31) :
    ∃ b' rest l r, writeStr true spec s b = .ok (b', T.length + l)
      ∧ Like b' ((T ++ List.replicate l spec.fill ++ s ++ List.replicate r spec.fill).map some ++ rest)
          (T.length + l + s.length + r)
      ∧ ∀ s' : Str, s'.length = s.length →
          Fmt.pad spec s' = List.replicate l spec.fill ++ s' ++ List.replicate r spec.fill := by
  by_cases hwide : spec.width > s.length
  · obtain ⟨b1, rest, e1, l1, hm⟩ := resize_like hg (T.length + spec.width) (by omega)
    generalize hp : spec.width - s.length = padding
    have main : ∀ l r, l + r = padding →
        ∃ y0 y1 y2 y3 : Arr, rest = y0 ++ (y1 ++ (y2 ++ y3)) ∧ y0.length = l ∧ y1.length = s.length ∧ y2.length = r := by
      intro l r hlr
      exact ⟨_, _, _, _, split3 rest l s.length r, by simp; omega, by simp; omega, by simp; omega⟩
    cases ha : spec.align with
    | right =>
      obtain ⟨y0, y1, y2, y3, hy, h0, h1, h2⟩ := main padding 0 (by omega)
      rw [hy] at l1
      obtain ⟨b2, e2, l2⟩ := Like.copyTo (x := T.map some) (y := y0) (z := y1 ++ (y2 ++ y3)) (by simpa using l1)
        (List.replicate padding spec.fill) (by simp [h0]) (i := T.length) (by simp)
      obtain ⟨b3, e3, l3⟩ := Like.copyTo (x := T.map some ++ (List.replicate padding spec.fill).map some) (y := y1) (z := y2 ++ y3)
        (by simpa using l2) s h1 (i := T.length + padding) (by simp)
      refine ⟨b3, y2 ++ y3, padding, 0, ?_, ?_, ?_⟩
      · simp only [writeStr, hg.size, hwide, if_true, bind, Except.bind, e1, ha, hp, e2, e3]
      · rw [show T.length + padding + s.length + 0 = T.length + spec.width by omega]; simpa using l3
      · intro s' hs'
        unfold Fmt.pad
        simp [ha, hs', hwide, hp]
    | center =>
      obtain ⟨y0, y1, y2, y3, hy, h0, h1, h2⟩ := main (padding / 2) (padding - padding / 2) (by omega)
      rw [hy] at l1
      obtain ⟨b2, e2, l2⟩ := Like.copyTo (x := T.map some) (y := y0) (z := y1 ++ (y2 ++ y3)) (by simpa using l1)
        (List.replicate (padding / 2) spec.fill) (by simp [h0]) (i := T.length) (by simp)
      obtain ⟨b3, e3, l3⟩ := Like.copyTo (x := T.map some ++ (List.replicate (padding / 2) spec.fill).map some ++ y1) (y := y2) (z := y3)
        (by simpa using l2) (List.replicate (padding - padding / 2) spec.fill) (by simp [h2])
        (i := T.length + padding / 2 + s.length) (by simp [h1]; omega)
      obtain ⟨b4, e4, l4⟩ := Like.copyTo (x := T.map some ++ (List.replicate (padding / 2) spec.fill).map some) (y := y1)
        (z := (List.replicate (padding - padding / 2) spec.fill).map some ++ y3)
        (by simpa using l3) s h1 (i := T.length + padding / 2) (by simp)
      refine ⟨b4, y3, padding / 2, padding - padding / 2, ?_, ?_, ?_⟩
      · simp only [writeStr, hg.size, hwide, if_true, bind, Except.bind, e1, ha, hp, e2, e3, e4]
      · rw [show T.length + padding / 2 + s.length + (padding - padding / 2) = T.length + spec.width by omega]; simpa using l4
      · intro s' hs'
        unfold Fmt.pad
        simp [ha, hs', hwide, hp]
    | _ =>
      obtain ⟨y0, y1, y2, y3, hy, h0, h1, h2⟩ := main 0 padding (by omega)
      rw [hy] at l1
      obtain rfl := List.eq_nil_of_length_eq_zero h0
      obtain ⟨b3, e3, l3⟩ := Like.copyTo (x := T.map some ++ y1) (y := y2) (z := y3)
        (by simpa using l1) (List.replicate padding spec.fill) (by simp [h2])
        (i := T.length + s.length) (by simp [h1])
      obtain ⟨b4, e4, l4⟩ := Like.copyTo (x := T.map some) (y := y1)
        (z := (List.replicate padding spec.fill).map some ++ y3)
        (by simpa using l3) s h1 (i := T.length) (by simp)
      refine ⟨b4, y3, 0, padding, ?_, ?_, ?_⟩
      · simp only [writeStr, hg.size, hwide, if_true, bind, Except.bind, e1, ha, hp, e3, e4, Nat.add_zero]
      · rw [show T.length + 0 + s.length + padding = T.length + spec.width by omega]; simpa using l4
      · intro s' hs'
        unfold Fmt.pad
        simp [ha, hs', hwide, hp]
  · obtain ⟨b1, rest, e1, l1, hm⟩ := resize_like hg (T.length + s.length) (by omega)
    rw [show rest = rest.take s.length ++ rest.drop s.length from (List.take_append_drop _ _).symm] at l1
    obtain ⟨b2, e2, l2⟩ := Like.copyTo (x := T.map some) (y := rest.take s.length) (z := rest.drop s.length) (by simpa using l1)
        s (by simp; omega) (i := T.length) (by simp)
    refine ⟨b2, rest.drop s.length, 0, 0, ?_, by simpa using l2, ?_⟩
    · simp only [writeStr, hg.size, hwide, if_false, bind, Except.bind, e1, e2, Nat.add_zero]
    · intro s' hs'
      unfold Fmt.pad
      simp [hs', hwide]

/-- A word with its sign is padded like text. -/
theorem writeWord_spec {spec : Spec} {sign : Option Char} {b : Buf} {T : Str} (hg : Good b T) (w : Str)
    (hT : T.length < 2 ^ 61) (hw : spec.width < 2 ^ 31) (hs : w.length < 2 ^ 30) :
    ∃ b', writeWord true spec sign (' ' :: w) b = .ok b' ∧ Good b' (T ++ Fmt.pad spec (sign.toList ++ w)) := by
  cases sign with
  | none =>
    obtain ⟨b', rest, l, r, e, hl, hp⟩ := writeStr_spec (spec := spec) hg w hT hw (by omega)
    refine ⟨b', ?_, ?_⟩
    · simp only [writeWord, List.drop_succ_cons, List.drop_zero, e, bind, Except.bind]
    · rw [Option.toList_none, List.nil_append, hp w rfl]
      refine Like.good (rest := rest) ?_
      have : (T ++ (List.replicate l spec.fill ++ w ++ List.replicate r spec.fill)).length = T.length + l + w.length + r := by
        simp; omega
      rw [this]; simpa using hl
  | some c =>
    obtain ⟨b1, rest, l, r, e, hl, hp⟩ := writeStr_spec (spec := spec) hg (' ' :: w) hT hw (by simp; omega)
    obtain ⟨b', e', hl'⟩ := Like.set (x := (T ++ List.replicate l spec.fill).map some) (o := some ' ')
      (z := (w ++ List.replicate r spec.fill).map some ++ rest) (by simpa using hl) c (i := T.length + l) (by simp)
    refine ⟨b', ?_, ?_⟩
    · simp only [writeWord, e, bind, Except.bind, e']
    · rw [Option.toList_some, List.singleton_append, hp (c :: w) (by simp)]
      refine Like.good (rest := rest) ?_
      have : (T ++ (List.replicate l spec.fill ++ (c :: w) ++ List.replicate r spec.fill)).length
          = T.length + l + (' ' :: w).length + r := by
        simp; omega
      rw [this]; simpa using hl'

end Blackhole.Double
