import Verif.Double.Model
import Verif.Buffer.Props

/-! # Writing into the buffer in place -/

namespace Blackhole.Double

open Fmt (Spec Align)
open Buffer (Buf Arr Good inlineSize arr_setArr copyTo_spec grow_spec)

/-- A buffer with its whole array in view. -/
structure Like (b : Buf) (a : Arr) (n : Nat) : Prop where
  arr : b.arr = a
  size : b.size = n
  cap : b.capacity = a.length
  lt : a.length < 2 ^ 63
  le : n ≤ a.length
  inl : b.inl.length = inlineSize
  fits : b.heap = none → b.capacity = inlineSize
  min : inlineSize ≤ b.capacity

theorem Like.good {b : Buf} {text : Str} {rest : Arr} (h : Like b (text.map some ++ rest) text.length) : Good b text where
  arr := by rw [h.arr, h.cap]
  size := h.size
  le := by rw [h.cap]; exact h.le
  text := by rw [h.arr]; exact List.take_left' (by simp)
  cap := by rw [h.cap]; exact h.lt
  inl := h.inl
  fits := h.fits
  min := h.min

theorem like_of_good {b : Buf} {text : Str} (g : Good b text) :
    ∃ rest, Like b (text.map some ++ rest) text.length ∧ text.length + rest.length = b.capacity := by
  have he : b.arr = text.map some ++ b.arr.drop text.length := by
    rw [← g.text, List.take_append_drop]
  have hl : text.length + (b.arr.drop text.length).length = b.capacity := by
    rw [List.length_drop, g.arr]; have := g.le; omega
  have hl2 : (text.map some ++ b.arr.drop text.length).length = b.capacity := by simpa using hl
  exact ⟨b.arr.drop text.length, ⟨he, g.size, hl2.symm, hl2 ▸ g.cap, hl2 ▸ g.le, g.inl, g.fits, g.min⟩, hl⟩

theorem Like.copyTo {b : Buf} {x y z : Arr} {n : Nat} (h : Like b (x ++ y ++ z) n) (s : Str) (hs : y.length = s.length)
    {i : Nat} (hi : i = x.length) : ∃ b', b.copyTo i s = .ok b' ∧ Like b' (x ++ s.map some ++ z) n := by
  obtain ⟨b', e, ha, hsz, hc, hl, hn⟩ := copyTo_spec s b i (by rw [h.arr, hi, ← hs]; simp)
  refine ⟨b', e, ?_⟩
  have ha' : b'.arr = x ++ s.map some ++ z := by
    rw [ha, h.arr, hi, List.append_assoc x y z, List.take_left, ← hs, ← List.append_assoc,
      List.drop_left' (by simp)]
  have hlen : (x ++ s.map some ++ z).length = (x ++ y ++ z).length := by simp [hs]
  exact ⟨ha', hsz.trans h.size, by rw [hc, h.cap, hlen], hlen ▸ h.lt, hlen ▸ h.le, hl.trans h.inl,
    fun hh => by rw [hc]; exact h.fits (hn.1 hh), by rw [hc]; exact h.min⟩

theorem Like.set {b : Buf} {x z : Arr} {o : Option Char} {n : Nat} (h : Like b (x ++ o :: z) n) (c : Char) {i : Nat}
    (hi : i = x.length) : ∃ b', b.set i c = .ok b' ∧ Like b' (x ++ some c :: z) n := by
  have h' : Like b (x ++ [o] ++ z) n := by simpa using h
  obtain ⟨b', e, hl⟩ := h'.copyTo [c] rfl hi
  refine ⟨b', ?_, by simpa using hl⟩
  unfold Buf.copyTo at e
  cases hb : b.set i c with
  | error x => rw [hb] at e; cases e
  | ok b2 => rw [hb] at e; exact e

theorem Like.get {b : Buf} {x z : Arr} {c : Char} {n : Nat} (h : Like b (x ++ some c :: z) n) {i : Nat}
    (hi : i = x.length) : get b i = .ok c := by
  unfold Double.get
  rw [h.arr, hi]
  simp

theorem Like.resize {b : Buf} {a : Arr} {n m : Nat} (h : Like b a n) (room : Bool) (hm : m ≤ a.length) :
    ∃ b', b.resize room m = .ok b' ∧ Like b' a m := by
  unfold Buf.resize
  rw [if_neg (by rw [h.cap]; omega)]
  exact ⟨_, rfl, h.arr, rfl, h.cap, h.lt, hm, h.inl, h.fits, h.min⟩

theorem Like.reserve {b : Buf} {text : Str} {rest : Arr} (h : Like b (text.map some ++ rest) text.length) (m : Nat)
    (hm : m < 2 ^ 62) :
    ∃ b' rest', b.reserve true m = .ok b' ∧ Like b' (text.map some ++ rest') text.length
      ∧ m ≤ text.length + rest'.length ∧ rest.length ≤ rest'.length := by
  unfold Buf.reserve
  have hc := h.cap
  simp only [List.length_append, List.length_map] at hc
  split
  · rename_i hh
    rcases grow_spec h.good true m hh (by omega) with ⟨_, h1 | h1⟩ | ⟨b', e, g, hle, _, _⟩
    · cases h1
    · omega
    · obtain ⟨rest', hl, hlen⟩ := like_of_good g
      exact ⟨b', rest', e, hl, by omega, by omega⟩
  · exact ⟨b, rest, rfl, h, by omega, Nat.le_refl _⟩

theorem setArr_like {b : Buf} {a a' : Arr} {n : Nat} (h : Like b a n) (hl : a'.length = a.length) :
    Like (b.setArr a') a' n := by
  have hin : b.heap = none → b.arr = b.inl := by intro hh; unfold Buf.arr; rw [hh]
  refine ⟨arr_setArr _ _, ?_, ?_, hl ▸ h.lt, hl ▸ h.le, ?_, ?_, ?_⟩
  · rw [← h.size]; unfold Buf.setArr; split <;> rfl
  · rw [hl, ← h.cap]; unfold Buf.setArr; split <;> rfl
  · unfold Buf.setArr
    split
    · exact h.inl
    · rename_i hh
      show a'.length = _
      rw [hl, ← h.arr, hin hh]; exact h.inl
  · intro hh
    have : (b.setArr a').capacity = b.capacity := by unfold Buf.setArr; split <;> rfl
    rw [this]
    apply h.fits
    revert hh
    unfold Buf.setArr
    split
    · intro hh; cases hh
    · rename_i h2; intro _; exact h2
  · have : (b.setArr a').capacity = b.capacity := by unfold Buf.setArr; split <;> rfl
    rw [this]; exact h.min

/-- Moving `w` forward by `k` characters. -/
theorem Like.shift {b : Buf} {x w y z : Arr} {n : Nat} (h : Like b (x ++ w ++ y ++ z) n) {p q m k : Nat}
    (hp : p = x.length) (hm : m = w.length) (hq : q = p + k) (hk : k = y.length) :
    ∃ b', Double.shift b p m q = .ok b' ∧ Like b' (x ++ (w ++ y).take k ++ w ++ z) n := by
  unfold Double.shift
  have hlen : (x ++ w ++ y ++ z).length = p + m + k + z.length := by simp [hp, hm, hk]; omega
  rw [if_pos (by rw [h.arr, hlen]; omega)]
  refine ⟨_, rfl, ?_⟩
  have e : b.arr.take q ++ (b.arr.drop p).take m ++ b.arr.drop (q + m) = x ++ (w ++ y).take k ++ w ++ z := by
    rw [h.arr]
    have e1 : (x ++ w ++ y ++ z).take q = x ++ (w ++ y).take k := by
      rw [show x ++ w ++ y ++ z = x ++ ((w ++ y) ++ z) by simp, List.take_append, List.take_of_length_le (by omega), hq, hp,
        Nat.add_sub_cancel_left, List.take_append_of_le_length (by simp; omega)]
    have e2 : ((x ++ w ++ y ++ z).drop p).take m = w := by
      rw [show x ++ w ++ y ++ z = x ++ (w ++ (y ++ z)) by simp, List.drop_left' hp.symm, List.take_left' hm.symm]
    have e3 : (x ++ w ++ y ++ z).drop (q + m) = z := List.drop_left' (by simp; omega)
    rw [e1, e2, e3]
  rw [e]
  exact setArr_like h (by simp; omega)

/-- Replacing leading spaces. -/
theorem fillSpaces_spec (fill : Char) (k : Nat) : ∀ (fuel : Nat) (b : Buf) (x z : Arr) (c : Char) (n i : Nat),
    Like b (x ++ ((List.replicate k ' ').map some ++ some c :: z)) n → c ≠ ' ' → k < fuel → i = x.length →
    ∃ b', fillSpaces fill fuel b i = .ok (b', i + k)
      ∧ Like b' (x ++ ((List.replicate k fill).map some ++ some c :: z)) n := by
  induction k with
  | zero =>
    intro fuel b x z c n i h hc hf hi
    obtain ⟨fuel, rfl⟩ : ∃ f, fuel = f + 1 := ⟨fuel - 1, by omega⟩
    refine ⟨b, ?_, h⟩
    unfold fillSpaces
    rw [Like.get (c := c) (x := x) (z := z) (by simpa using h) hi]
    simp [hc]
  | succ k ih =>
    intro fuel b x z c n i h hc hf hi
    obtain ⟨fuel, rfl⟩ : ∃ f, fuel = f + 1 := ⟨fuel - 1, by omega⟩
    have h1 : Like b (x ++ some ' ' :: ((List.replicate k ' ').map some ++ some c :: z)) n := by
      simpa [List.replicate_succ] using h
    obtain ⟨b1, e1, l1⟩ := h1.set fill hi
    obtain ⟨b2, e2, l2⟩ := ih fuel b1 (x ++ [some fill]) z c n (i + 1) (by simpa using l1) hc (by omega) (by simp [hi])
    refine ⟨b2, ?_, by simpa [List.replicate_succ] using l2⟩
    unfold fillSpaces
    rw [h1.get hi]
    simp only [if_true, e1, e2]
    rw [show i + 1 + k = i + (k + 1) by omega]

/-- The sign is written at once unless there is padding to the left of the number. -/
theorem putSign_now {spec : Spec} {c d : Char} {b : Buf} {x z : Arr} {o : Option Char} {n start : Nat}
    (h : Like b (x ++ o :: some d :: z) n) (hs : start = x.length + 1)
    (hd : (spec.align ≠ .right ∧ spec.align ≠ .default) ∨ d ≠ ' ') :
    ∃ b', putSign spec (some c) b start = .ok (b', none) ∧ Like b' (x ++ some c :: some d :: z) n := by
  obtain ⟨b', e, l⟩ := h.set c (i := start - 1) (by omega)
  refine ⟨b', ?_, l⟩
  have hg : get b start = .ok d := Like.get (x := x ++ [o]) (z := z) (by simpa using h) (by simp [hs])
  simp only [putSign, hg]
  rw [if_pos hd, e]
  rfl

theorem putSign_later {spec : Spec} {c : Char} {b : Buf} {x z : Arr} {o : Option Char} {n start : Nat}
    (h : Like b (x ++ o :: some ' ' :: z) n) (hs : start = x.length + 1)
    (ha : spec.align = .right ∨ spec.align = .default) :
    ∃ b', putSign spec (some c) b start = .ok (b', some c) ∧ Like b' (x ++ some spec.fill :: some ' ' :: z) n := by
  obtain ⟨b', e, l⟩ := h.set spec.fill (i := start - 1) (by omega)
  refine ⟨b', ?_, l⟩
  have hg : get b start = .ok ' ' := Like.get (x := x ++ [o]) (z := z) (by simpa using h) (by simp [hs])
  simp only [putSign, hg]
  rw [if_neg (by rcases ha with ha | ha <;> simp [ha]), e]
  rfl

/-- The last step: the characters written behind the text become part of it. -/
theorem finish_good {b : Buf} {T s : Str} {z : Arr} {n : Nat} (h : Like b ((T ++ s).map some ++ z) n) (room : Bool) (m : Nat)
    (hm : m = (T ++ s).length) : ∃ b', b.resize room m = .ok b' ∧ Good b' (T ++ s) := by
  obtain ⟨b', e, l⟩ := h.resize room (m := m) (by rw [hm]; simp)
  exact ⟨b', e, Like.good (hm ▸ l)⟩

/-- Without a sign to be written later, spaces in front of the number become fill characters. -/
theorem fill_none {spec : Spec} {b : Buf} {T s : Str} {k : Nat} {d : Char} {ds : Str} {z : Arr} {n start m : Nat}
    (h : Like b ((T ++ s).map some ++ ((List.replicate k ' ').map some ++ (d :: ds).map some ++ z)) n)
    (hd : d ≠ ' ') (hs : start = (T ++ s).length) (room : Bool)
    (hm : m = (T ++ s).length + k + (d :: ds).length) :
    ∃ b1 b', fillFront spec none b start = .ok b1 ∧ b1.size = n ∧ b1.resize room m = .ok b'
      ∧ Good b' (T ++ (s ++ List.replicate k spec.fill ++ (d :: ds))) := by
  have key : ∃ b1, fillFront spec none b start = .ok b1
      ∧ Like b1 ((T ++ s).map some ++ ((List.replicate k spec.fill).map some ++ (d :: ds).map some ++ z)) n := by
    by_cases hf : spec.fill = ' '
    · refine ⟨b, by simp [fillFront, hf], ?_⟩
      rw [hf]; exact h
    · obtain ⟨b1, e, l⟩ := fillSpaces_spec spec.fill k (b.capacity + 1) b ((T ++ s).map some) (ds.map some ++ z) d n start
        (by simpa using h) hd (by rw [h.cap]; simp; omega) (by simpa using hs)
      refine ⟨b1, ?_, by simpa using l⟩
      simp only [fillFront, hf, ne_eq, not_false_eq_true, true_or, if_true]
      rw [e]
      rfl
  obtain ⟨b1, e1, l1⟩ := key
  obtain ⟨b', e2, g⟩ := finish_good (T := T) (s := s ++ List.replicate k spec.fill ++ (d :: ds)) (z := z) (by simpa using l1)
    room m (by simp [hm]; omega)
  exact ⟨b1, b', e1, l1.size, e2, g⟩

/-- With a sign to be written later, it goes right before the number. -/
theorem fill_some {spec : Spec} {b : Buf} {T : Str} {k : Nat} {c d : Char} {ds : Str} {z : Arr} {n start m : Nat}
    (h : Like b (T.map some ++ some spec.fill :: ((List.replicate k ' ').map some ++ (d :: ds).map some ++ z)) n)
    (hd : d ≠ ' ') (hs : start = T.length + 1) (room : Bool)
    (hm : m = T.length + 1 + k + (d :: ds).length) :
    ∃ b1 b', fillFront spec (some c) b start = .ok b1 ∧ b1.size = n ∧ b1.resize room m = .ok b'
      ∧ Good b' (T ++ (List.replicate k spec.fill ++ c :: (d :: ds))) := by
  obtain ⟨b1, e, l⟩ := fillSpaces_spec spec.fill k (b.capacity + 1) b (T.map some ++ [some spec.fill]) (ds.map some ++ z) d n
    start (by simpa using h) hd (by rw [h.cap]; simp; omega) (by simpa using hs)
  have l' : Like b1 (T.map some ++ (List.replicate k spec.fill).map some ++ some spec.fill :: ((d :: ds).map some ++ z)) n := by
    have : T.map some ++ [some spec.fill] ++ ((List.replicate k spec.fill).map some ++ some d :: (ds.map some ++ z))
        = T.map some ++ (List.replicate k spec.fill).map some ++ some spec.fill :: ((d :: ds).map some ++ z) := by
      have hr : some spec.fill :: List.replicate k (some spec.fill) = List.replicate k (some spec.fill) ++ [some spec.fill] := by
        rw [← List.replicate_succ, List.replicate_succ']
      simp only [List.map_replicate, List.map_cons, List.append_assoc, List.cons_append, List.nil_append, List.append_cancel_left_eq]
      rw [← List.cons_append, hr]
      simp
    rw [← this]; exact l
  obtain ⟨b2, e2, l2⟩ := l'.set c (i := start + k - 1) (by simp [hs])
  obtain ⟨b', e3, g⟩ := finish_good (T := T) (s := List.replicate k spec.fill ++ c :: (d :: ds)) (z := z) (by simpa using l2)
    room m (by simp [hm]; omega)
  refine ⟨b2, b', ?_, l2.size, e3, g⟩
  simp only [fillFront, Option.isSome_some, or_true, if_true]
  rw [e]
  exact e2

end Blackhole.Double
