import Verif.Double.Lemmas
import Verif.Fmt.Spec

/-! # Where the parts of a number go -/

namespace Blackhole.Double

open Fmt (Spec Align layout)
open Buffer (Buf Arr Good inlineSize)

/-- The width that the C library is asked for. -/
def printfW (spec : Spec) (sign : Option Char) : Nat :=
  if spec.align = .center then 0 else if sign.isSome then spec.width - 1 else spec.width

/-- The C library's text. -/
def printed (spec : Spec) (sign : Option Char) (body : Str) : Str :=
  printfWidth (spec.align = .left) (printfW spec sign) body

theorem place_front {spec : Spec} (ha : spec.align = .right ∨ spec.align = .default ∨ spec.align = .numeric)
    {sign : Option Char} {b : Buf} {T : Str} {g z : Arr} {d : Char} {ds : Str} (hd : d ≠ ' ')
    (hg : g.length = sign.toList.length)
    (h : Like b (T.map some ++ g ++ (printed spec sign (d :: ds)).map some ++ z) T.length) (room : Bool) :
    ∃ b', place room spec sign b (T.length + g.length) (printed spec sign (d :: ds)).length = .ok b'
      ∧ Good b' (T ++ layout spec sign.toList (d :: ds)) := by
  have hc : spec.align ≠ .center := by rcases ha with ha | ha | ha <;> simp [ha]
  have hl : spec.align ≠ .left := by rcases ha with ha | ha | ha <;> simp [ha]
  generalize hk : printfW spec sign - (d :: ds).length = k
  have hk' : k = spec.width - (sign.toList.length + (d :: ds).length) := by
    rw [← hk]; unfold printfW; rw [if_neg hc]
    cases sign <;> simp <;> omega
  have hp : printed spec sign (d :: ds) = List.replicate k ' ' ++ (d :: ds) := by
    unfold printed printfWidth
    simp only [hl, decide_false, Bool.false_eq_true, if_false, hk]
  rw [hp] at h ⊢
  cases sign with
  | none =>
    obtain rfl : g = [] := List.eq_nil_of_length_eq_zero (by simpa using hg)
    obtain ⟨b1, b', e1, e2, e3, g1⟩ := fill_none (spec := spec) (T := T) (s := []) (k := k) (d := d) (ds := ds) (z := z)
      (start := T.length) (m := T.length + (k + (d :: ds).length)) (by simpa using h) hd (by simp) room (by simp; omega)
    refine ⟨b', ?_, ?_⟩
    · simp only [place, putSign, bind, Except.bind, Option.isSome_none, Bool.false_eq_true, if_false, hc, false_and,
        List.length_nil, Nat.add_zero, e1, e2, List.length_append, List.length_replicate, e3]
    · have : layout spec [] (d :: ds) = List.replicate k spec.fill ++ (d :: ds) := by
        unfold layout
        rcases ha with ha | ha | ha <;> simp [ha, hk']
      rw [Option.toList_none, this]
      simpa using g1
  | some c =>
    obtain ⟨o, rfl⟩ : ∃ o, g = [o] := List.length_eq_one_iff.1 (by simpa using hg)
    by_cases hnow : (spec.align ≠ .right ∧ spec.align ≠ .default) ∨ k = 0
    · -- the sign comes first
      obtain ⟨d', hd', hcond⟩ : ∃ d' ds', (d' :: ds' = List.replicate k ' ' ++ (d :: ds)) ∧
          ((spec.align ≠ .right ∧ spec.align ≠ .default) ∨ d' ≠ ' ') := by
        cases k with
        | zero => exact ⟨d, ds, rfl, .inr hd⟩
        | succ k => exact ⟨' ', _, rfl, .inl (by simpa using hnow)⟩
      obtain ⟨hd', hcond⟩ := hcond
      obtain ⟨b0, e0, l0⟩ := putSign_now (spec := spec) (c := c) (b := b) (x := T.map some) (o := o) (d := d') (n := T.length)
        (start := T.length + 1) (z := _) (by rw [← hd'] at h; simpa using h) (by simp) hcond
      obtain ⟨b1, b', e1, e2, e3, g1⟩ := fill_none (spec := spec) (b := b0) (T := T) (s := [c]) (k := k) (d := d) (ds := ds) (z := z)
        (n := T.length) (start := T.length + 1) (m := T.length + (k + (d :: ds).length + 1))
        (by
          have e : (T ++ [c]).map some ++ ((List.replicate k ' ').map some ++ (d :: ds).map some ++ z)
              = T.map some ++ some c :: ((List.replicate k ' ' ++ (d :: ds)).map some ++ z) := by simp
          rw [e, ← hd']; simpa using l0)
        hd (by simp) room (by simp; omega)
      refine ⟨b', ?_, ?_⟩
      · simp only [place, e0, bind, Except.bind, Option.isSome_some, if_true, hc, false_and, if_false,
          List.length_singleton, e1, e2, List.length_append, List.length_replicate, e3]
      · have : layout spec [c] (d :: ds) = [c] ++ List.replicate k spec.fill ++ (d :: ds) := by
          unfold layout
          rcases ha with ha | ha | ha
          · have : k = 0 := by simpa [ha] using hnow
            simp only [Option.toList_some] at hk'
            simp only [← hk']; simp [ha, this]
          · have : k = 0 := by simpa [ha] using hnow
            simp only [Option.toList_some] at hk'
            simp only [← hk']; simp [ha, this]
          · simp only [Option.toList_some] at hk'
            simp only [← hk']; simp [ha]
        rw [Option.toList_some, this]
        exact g1
    · -- the sign comes after the padding
      have har : spec.align = .right ∨ spec.align = .default := by
        rcases ha with ha | ha | ha
        · exact .inl ha
        · exact .inr ha
        · exact absurd (.inl ⟨by simp [ha], by simp [ha]⟩) hnow
      obtain ⟨k', rfl⟩ : ∃ k', k = k' + 1 := ⟨k - 1, by have : k ≠ 0 := fun h0 => hnow (.inr h0); omega⟩
      obtain ⟨b0, e0, l0⟩ := putSign_later (spec := spec) (c := c) (b := b) (x := T.map some) (o := o) (n := T.length)
        (start := T.length + 1) (z := (List.replicate k' ' ' ++ (d :: ds)).map some ++ z)
        (by simpa [List.replicate_succ] using h) (by simp) har
      obtain ⟨b1, b', e1, e2, e3, g1⟩ := fill_some (spec := spec) (b := b0) (T := T) (c := c) (k := k' + 1) (d := d) (ds := ds) (z := z)
        (n := T.length) (start := T.length + 1) (m := T.length + (k' + 1 + (d :: ds).length + 1))
        (by simpa [List.replicate_succ] using l0) hd (by simp) room (by simp; omega)
      refine ⟨b', ?_, ?_⟩
      · simp only [place, e0, bind, Except.bind, Option.isSome_some, if_true, hc, false_and, if_false,
          List.length_singleton, e1, e2, List.length_append, List.length_replicate, e3]
      · have : layout spec [c] (d :: ds) = List.replicate (k' + 1) spec.fill ++ c :: (d :: ds) := by
          unfold layout
          simp only [Option.toList_some] at hk'
          simp only [← hk']
          rcases har with ha | ha <;> simp [ha]
        rw [Option.toList_some, this]
        exact g1

/-- To the left of its field a number is padded with spaces. -/
theorem place_left {spec : Spec} (ha : spec.align = .left)
    {sign : Option Char} {b : Buf} {T : Str} {g z : Arr} {d : Char} {ds : Str} (hd : d ≠ ' ')
    (hg : g.length = sign.toList.length)
    (h : Like b (T.map some ++ g ++ (printed spec sign (d :: ds)).map some ++ z) T.length) (room : Bool) :
    ∃ b', place room spec sign b (T.length + g.length) (printed spec sign (d :: ds)).length = .ok b'
      ∧ Good b' (T ++ (sign.toList ++ (d :: ds) ++
          List.replicate (spec.width - (sign.toList.length + (d :: ds).length)) ' ')) := by
  have hc : spec.align ≠ .center := by simp [ha]
  generalize hk : printfW spec sign - (d :: ds).length = k
  have hk' : spec.width - (sign.toList.length + (d :: ds).length) = k := by
    rw [← hk]; unfold printfW; rw [if_neg hc]
    cases sign <;> simp <;> omega
  have hp : printed spec sign (d :: ds) = d :: (ds ++ List.replicate k ' ') := by
    unfold printed printfWidth
    simp only [ha, decide_true, if_true, hk, List.cons_append]
  rw [hp] at h ⊢
  rw [hk']
  cases sign with
  | none =>
    obtain rfl : g = [] := List.eq_nil_of_length_eq_zero (by simpa using hg)
    obtain ⟨b1, b', e1, e2, e3, g1⟩ := fill_none (spec := spec) (T := T) (s := []) (k := 0) (d := d)
      (ds := ds ++ List.replicate k ' ') (z := z)
      (start := T.length) (m := T.length + (d :: (ds ++ List.replicate k ' ')).length) (by simpa using h) hd (by simp) room (by simp)
    refine ⟨b', ?_, by simpa using g1⟩
    simp only [place, putSign, bind, Except.bind, Option.isSome_none, Bool.false_eq_true, if_false, hc, false_and,
      List.length_nil, Nat.add_zero, e1, e2, e3]
  | some c =>
    obtain ⟨o, rfl⟩ : ∃ o, g = [o] := List.length_eq_one_iff.1 (by simpa using hg)
    obtain ⟨b0, e0, l0⟩ := putSign_now (spec := spec) (c := c) (b := b) (x := T.map some) (o := o) (d := d) (n := T.length)
      (start := T.length + 1) (z := (ds ++ List.replicate k ' ').map some ++ z) (by simpa using h) (by simp) (.inr hd)
    obtain ⟨b1, b', e1, e2, e3, g1⟩ := fill_none (spec := spec) (b := b0) (T := T) (s := [c]) (k := 0) (d := d)
      (ds := ds ++ List.replicate k ' ') (z := z) (n := T.length)
      (start := T.length + 1) (m := T.length + ((d :: (ds ++ List.replicate k ' ')).length + 1)) (by simpa using l0) hd (by simp) room
      (by simp; omega)
    refine ⟨b', ?_, by simpa using g1⟩
    simp only [place, e0, bind, Except.bind, Option.isSome_some, if_true, hc, false_and, if_false,
      List.length_singleton, e1, e2, e3]

/-- In the middle of its field, if the buffer has room for all of it. -/
theorem place_center {spec : Spec} (ha : spec.align = .center)
    {sign : Option Char} {b : Buf} {T : Str} {g z : Arr} {d : Char} {ds : Str} (hd : d ≠ ' ')
    (hg : g.length = sign.toList.length)
    (h : Like b (T.map some ++ g ++ (printed spec sign (d :: ds)).map some ++ z) T.length) (room : Bool)
    (hroom : spec.width ≤ sign.toList.length + (d :: ds).length + z.length ∨ spec.width ≤ sign.toList.length + (d :: ds).length) :
    ∃ b', place room spec sign b (T.length + g.length) (printed spec sign (d :: ds)).length = .ok b'
      ∧ Good b' (T ++ layout spec sign.toList (d :: ds)) := by
  have hp : printed spec sign (d :: ds) = d :: ds := by
    unfold printed printfWidth printfW
    simp [ha]
  rw [hp] at h ⊢
  have hsign : ∃ b0, putSign spec sign b (T.length + g.length) = .ok (b0, none)
      ∧ Like b0 (T.map some ++ sign.toList.map some ++ (d :: ds).map some ++ z) T.length := by
    cases sign with
    | none =>
      obtain rfl : g = [] := List.eq_nil_of_length_eq_zero (by simpa using hg)
      exact ⟨b, rfl, by simpa using h⟩
    | some c =>
      obtain ⟨o, rfl⟩ : ∃ o, g = [o] := List.length_eq_one_iff.1 (by simpa using hg)
      obtain ⟨b0, e0, l0⟩ := putSign_now (spec := spec) (c := c) (b := b) (x := T.map some) (o := o) (d := d) (n := T.length)
        (start := T.length + 1) (z := ds.map some ++ z) (by simpa using h) (by simp) (.inr hd)
      exact ⟨b0, e0, by simpa using l0⟩
  obtain ⟨b0, e0, l0⟩ := hsign
  have hn : (if sign.isSome then (d :: ds).length + 1 else (d :: ds).length) = (sign.toList ++ (d :: ds)).length := by
    cases sign <;> simp
  by_cases hw : spec.width > (sign.toList ++ (d :: ds)).length
  · generalize hW : sign.toList ++ (d :: ds) = W at *
    have hWl : W.length = sign.toList.length + (d :: ds).length := by rw [← hW, List.length_append]
    generalize hleft : (spec.width - W.length) / 2 = left
    generalize hright : spec.width - W.length - left = right
    have hz : left + right ≤ z.length := by omega
    have hzs : z = z.take left ++ ((z.drop left).take right ++ z.drop (left + right)) := by
      rw [← List.drop_drop, List.take_append_drop, List.take_append_drop]
    have l1 : Like b0 (T.map some ++ W.map some ++ z.take left ++ ((z.drop left).take right ++ z.drop (left + right))) T.length := by
      have : T.map some ++ W.map some ++ z.take left ++ ((z.drop left).take right ++ z.drop (left + right))
          = T.map some ++ sign.toList.map some ++ (d :: ds).map some ++ z := by
        rw [List.append_assoc (T.map some ++ W.map some), ← hzs, ← hW]; simp
      rw [this]; exact l0
    obtain ⟨b1, e1, l1⟩ := l1.resize room (m := T.length + spec.width) (by simp; omega)
    obtain ⟨b2, e2, l2⟩ := l1.shift (p := T.length) (q := T.length + left) (m := W.length) (k := left) (by simp) (by simp) rfl
      (by simp; omega)
    obtain ⟨b3, e3, l3⟩ := Like.copyTo (x := T.map some) (y := (W.map some ++ z.take left).take left)
      (z := W.map some ++ ((z.drop left).take right ++ z.drop (left + right))) (by simpa using l2)
      (List.replicate left spec.fill) (by simp; omega) (i := T.length) (by simp)
    obtain ⟨b4, e4, l4⟩ := Like.copyTo (x := T.map some ++ (List.replicate left spec.fill).map some ++ W.map some)
      (y := (z.drop left).take right) (z := z.drop (left + right)) (by simpa using l3)
      (List.replicate right spec.fill) (by simp; omega) (i := T.length + left + W.length) (by simp; omega)
    refine ⟨b4, ?_, ?_⟩
    · simp only [place, e0, bind, Except.bind, hn, ha, hw, and_self, if_true, l0.size, hleft, e1, e2, e3, hright, e4]
    · have : layout spec sign.toList (d :: ds)
          = List.replicate left spec.fill ++ W ++ List.replicate right spec.fill := by
        unfold layout
        simp only [ha, ← hWl, hleft, hright]
        rw [← hW]; simp
      rw [this]
      refine Like.good (rest := z.drop (left + right)) ?_
      have hlen : (T ++ (List.replicate left spec.fill ++ W ++ List.replicate right spec.fill)).length = T.length + spec.width := by
        simp; omega
      rw [hlen]
      simpa using l4
  · obtain ⟨b1, b', e1, e2, e3, g1⟩ := fill_none (spec := spec) (b := b0) (T := T) (s := sign.toList) (k := 0) (d := d)
      (ds := ds) (z := z) (n := T.length)
      (start := T.length + g.length) (m := T.length + (sign.toList ++ (d :: ds)).length) (by simpa using l0) hd (by simp [hg]) room
      (by simp; omega)
    refine ⟨b', ?_, ?_⟩
    · simp only [place, e0, bind, Except.bind, hn, hw, and_false, if_false, e1, e2, e3]
    · have : layout spec sign.toList (d :: ds) = sign.toList ++ (d :: ds) := by
        have h0 : spec.width - (sign.toList.length + (d :: ds).length) = 0 := by
          rw [List.length_append] at hw; omega
        unfold layout
        simp only [ha, h0]; simp
      rw [this]
      simpa using g1

end Blackhole.Double
