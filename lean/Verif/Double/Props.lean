import Verif.Double.Write
import Verif.Fmt.Lemmas

/-!
# C71: floating point numbers in text
-/

namespace Blackhole.Double

open Fmt (Spec Align layout)
open Buffer (Buf Arr Good inlineSize read_good op_spec)

/-! ## Kinds of values -/

def signChar (spec : Spec) (bits : Nat) : Option Char :=
  if negative bits then some '-' else if spec.sign then some (if spec.plus then '+' else ' ') else none

theorem signChar_eq (spec : Spec) {bits : Nat} (hb : bits < 2 ^ 64) : (signChar spec bits).toList = signOf spec bits := by
  unfold signChar signOf negative
  have : (2 ^ 63 ≤ bits) ↔ bits / 2 ^ 63 = 1 := by omega
  simp only [decide_eq_true_eq, this]
  split
  · rfl
  · split
    · split <;> rfl
    · rfl

theorem isNan_iff {bits : Nat} (hb : bits < 2 ^ 64) : isNan (magnitude bits) = true ↔ NotANumber bits := by
  unfold isNan magnitude NotANumber exponent fraction
  simp only [decide_eq_true_eq]
  omega

theorem isInf_iff {bits : Nat} (hb : bits < 2 ^ 64) : isInf (magnitude bits) = true ↔ Infinite bits := by
  unfold isInf magnitude Infinite exponent fraction
  simp only [decide_eq_true_eq]
  omega

theorem writeDouble_known (lib : Libc) (room : Bool) {spec : Spec} (hk : Known spec) (bits : Nat) (b : Buf) :
    writeDouble lib room spec bits b =
      (if isNan (magnitude bits) then lift (writeWord room spec (signChar spec bits) (' ' :: wordOf spec (ch! "nan") (ch! "NAN")) b)
       else if isInf (magnitude bits) then lift (writeWord room spec (signChar spec bits) (' ' :: wordOf spec (ch! "inf") (ch! "INF")) b)
       else lift (writeFinite lib room spec (signChar spec bits) (spec.type.getD 'g') (magnitude bits) b)) := by
  unfold writeDouble wordOf capital
  rcases hk with hk | ⟨c, hc, hk⟩
  · simp [hk, bind, Except.bind, signChar]
  · simp only [List.mem_cons, List.not_mem_nil, or_false] at hc
    rcases hc with rfl | rfl | rfl | rfl | rfl | rfl | rfl | rfl <;>
      simp [hk, bind, Except.bind, signChar]

theorem writeDouble_finite (lib : Libc) (room : Bool) {spec : Spec} (hk : Known spec) {bits : Nat} (hb : bits < 2 ^ 64)
    (hf : Finite bits) (b : Buf) :
    writeDouble lib room spec bits b
      = lift (writeFinite lib room spec (signChar spec bits) (spec.type.getD 'g') (magnitude bits) b) := by
  rw [writeDouble_known lib room hk]
  rw [if_neg (by rw [isNan_iff hb]; unfold NotANumber; unfold Finite at hf; omega),
    if_neg (by rw [isInf_iff hb]; unfold Infinite; unfold Finite at hf; omega)]

/-- A finite number, in a buffer that holds a text. -/
theorem finite_spec {lib : Libc} (hlib : lib.Sane) {spec : Spec} (hk : Known spec) {bits : Nat} (hb : bits < 2 ^ 64)
    (hf : Finite bits) (hw : spec.width < 2 ^ 31) (hs : (digitsOf lib spec bits).length < 2 ^ 31 - 1)
    {b : Buf} {T : Str} (hg : Good b T) (hT : T.length < 2 ^ 61)
    (hroom : spec.align = .center → signOf spec bits ≠ [] ∨ T.length + spec.width ≤ b.capacity
      ∨ spec.width ≤ (digitsOf lib spec bits).length) :
    ∃ b', writeDouble lib true spec bits b = .ok b' ∧ Good b' (T ++
      if spec.align = .left then signOf spec bits ++ digitsOf lib spec bits ++
          List.replicate (spec.width - (signOf spec bits ++ digitsOf lib spec bits).length) ' '
      else field lib spec bits) := by
  rw [writeDouble_finite lib true hk hb hf]
  obtain ⟨d, ds, hd, hne⟩ := hlib spec.hash spec.precision (spec.type.getD 'g') (magnitude bits)
  have hdig : digitsOf lib spec bits = d :: ds := hd
  obtain ⟨b', e, g⟩ := writeFinite_spec (sign := signChar spec bits) hg hd hne hT hw (by rw [← hdig]; omega) (by
    intro hc
    rcases hroom hc with h | h | h
    · left
      rw [← signChar_eq spec hb] at h
      cases hsc : signChar spec bits with
      | none => rw [hsc] at h; exact absurd rfl h
      | some c => rfl
    · exact .inr (.inl h)
    · right; right; rw [← hdig]; exact h)
  refine ⟨b', by rw [e]; rfl, ?_⟩
  rw [signChar_eq spec hb, ← hdig] at g
  rw [List.length_append]
  exact g

theorem plain_spec {lib : Libc} (hlib : lib.Sane) {spec : Spec} {bits : Nat} (hp : Plain lib spec bits)
    {b : Buf} {T : Str} (hg : Good b T) (hT : T.length < 2 ^ 61) :
    ∃ b', writeDouble lib true spec bits b = .ok b' ∧ Good b' (T ++ field lib spec bits) := by
  obtain ⟨b', e, g⟩ := finite_spec hlib hp.known hp.word hp.finite hp.width hp.size hg hT (by
    intro hc
    rcases hp.center hc with h | h
    · exact .inl h
    · exact .inr (.inr h))
  refine ⟨b', e, ?_⟩
  split at g
  · rename_i hl
    have : field lib spec bits = signOf spec bits ++ digitsOf lib spec bits ++
        List.replicate (spec.width - (signOf spec bits ++ digitsOf lib spec bits).length) ' ' := by
      unfold field layout
      simp only [hl, ← List.length_append]
      rcases hp.left hl with h | h
      · rw [h]
      · rw [Nat.sub_eq_zero_of_le h]; simp
    rw [this]; exact g
  · exact g

theorem append_spec {b : Buf} {T : Str} (hg : Good b T) (s : Str) (h : T.length + s.length < 2 ^ 61) :
    ∃ b', b.append true s = .ok b' ∧ Good b' (T ++ s) := by
  rcases op_spec hg (.append true s) (by show s.length < 2 ^ 63; omega) with ⟨_, hd⟩ | ⟨b', e, g⟩
  · rcases hd with hd | hd
    · cases hd
    · omega
  · exact ⟨b', e, g⟩

theorem writeAll_spec {lib : Libc} (hlib : lib.Sane) (ps : List Piece) (hp : ∀ p ∈ ps, p.Plain lib) :
    ∀ (b : Buf) (T : Str), Good b T → (T ++ ps.flatMap (Piece.expected lib)).length < 2 ^ 61 →
    ∃ b', writeAll lib b ps = .ok b' ∧ Good b' (T ++ ps.flatMap (Piece.expected lib)) := by
  induction ps with
  | nil => intro b T hg _; exact ⟨b, rfl, by simpa using hg⟩
  | cons p ps ih =>
    intro b T hg hlen
    have hrest := ih (fun q hq => hp q (List.mem_cons_of_mem _ hq))
    have hp1 := hp p List.mem_cons_self
    simp only [List.flatMap_cons, List.length_append] at hlen
    cases p with
    | text s =>
      simp only [Piece.expected] at hlen
      obtain ⟨b1, e1, g1⟩ := append_spec hg s (by omega)
      obtain ⟨b2, e2, g2⟩ := hrest _ _ g1 (by simp only [List.length_append]; omega)
      refine ⟨b2, ?_, by simpa [Piece.expected] using g2⟩
      simp only [writeAll, e1, lift, bind, Except.bind, e2]
    | number spec bits =>
      simp only [Piece.expected] at hlen
      obtain ⟨b1, e1, g1⟩ := plain_spec hlib hp1 hg (by omega)
      obtain ⟨b2, e2, g2⟩ := hrest _ _ g1 (by simp only [List.length_append]; omega)
      refine ⟨b2, ?_, by simpa [Piece.expected] using g2⟩
      simp only [writeAll, e1, bind, Except.bind, e2]

theorem writeAll_append (lib : Libc) (ps qs : List Piece) : ∀ (b b' : Buf), writeAll lib b ps = .ok b' →
    writeAll lib b (ps ++ qs) = writeAll lib b' qs := by
  induction ps with
  | nil => intro b b' h; cases h; rfl
  | cons p ps ih =>
    intro b b' h
    cases p with
    | text s =>
      simp only [writeAll, List.cons_append, bind, Except.bind] at h ⊢
      cases ha : lift (b.append true s) with
      | error x => rw [ha] at h; cases h
      | ok b1 => rw [ha] at h; exact ih b1 b' h
    | number spec bits =>
      simp only [writeAll, List.cons_append, bind, Except.bind] at h ⊢
      cases ha : writeDouble lib true spec bits b with
      | error x => rw [ha] at h; cases h
      | ok b1 => rw [ha] at h; exact ih b1 b' h

theorem writeAll_one (lib : Libc) (b : Buf) (spec : Spec) (bits : Nat) :
    writeAll lib b [.number spec bits] = writeDouble lib true spec bits b := by
  simp only [writeAll, bind, Except.bind]
  cases writeDouble lib true spec bits b <;> rfl

/-! ## The property -/

/-- Texts and numbers written one after the other come out one after the other, each number as its sign and the C
library's digits, padded like any number; if numbers to be padded on the right are padded with spaces, and those to be
centred in a wider field have a sign. -/
theorem C71_numbers_partial (lib : Libc) (hlib : lib.Sane) (ps : List Piece) (hp : ∀ p ∈ ps, p.Plain lib)
    (hlen : (ps.flatMap (Piece.expected lib)).length < 2 ^ 61) :
    ∃ b, writeAll lib Buf.init ps = .ok b ∧ b.read = .ok (ps.flatMap (Piece.expected lib)) := by
  obtain ⟨b, e, g⟩ := writeAll_spec hlib ps hp _ _ Good.init (by simpa using hlen)
  exact ⟨b, e, by simpa using read_good g⟩

/-- A centred number without a sign comes out right as long as its field ends within the writer's first 500
characters. -/
theorem C71_center_partial (lib : Libc) (hlib : lib.Sane) (ps : List Piece) (hp : ∀ p ∈ ps, p.Plain lib) (spec : Spec)
    (bits : Nat) (hk : Known spec) (hb : bits < 2 ^ 64) (hf : Finite bits) (hc : spec.align = .center)
    (hw : (ps.flatMap (Piece.expected lib)).length + spec.width ≤ 500)
    (hs : (digitsOf lib spec bits).length < 2 ^ 31 - 1) :
    ∃ b, writeAll lib Buf.init (ps ++ [.number spec bits]) = .ok b
      ∧ b.read = .ok (ps.flatMap (Piece.expected lib) ++ field lib spec bits) := by
  obtain ⟨b, e, g⟩ := writeAll_spec hlib ps hp _ _ Good.init (by rw [List.nil_append]; omega)
  rw [List.nil_append] at g
  obtain ⟨b', e', g'⟩ := finite_spec hlib hk hb hf (by omega) hs g (by omega) (fun _ => .inr (.inl (by
    have : inlineSize = 500 := rfl
    have := g.min; omega)))
  rw [if_neg (by simp [hc])] at g'
  exact ⟨b', by rw [writeAll_append lib ps _ _ _ e, writeAll_one, e'], read_good g'⟩

/-- Infinity and NaN are words, in capital letters for a capital conversion, behind their sign. They are padded like
text. -/
theorem C71_words (lib : Libc) (hlib : lib.Sane) (ps : List Piece) (hp : ∀ p ∈ ps, p.Plain lib) (spec : Spec) (bits : Nat)
    (hk : Known spec) (hb : bits < 2 ^ 64) (hw : spec.width < 2 ^ 31)
    (hlen : (ps.flatMap (Piece.expected lib)).length < 2 ^ 61) (small big : Str)
    (hn : (NotANumber bits ∧ small = ch! "nan" ∧ big = ch! "NAN") ∨ (Infinite bits ∧ small = ch! "inf" ∧ big = ch! "INF")) :
    ∃ b, writeAll lib Buf.init (ps ++ [.number spec bits]) = .ok b
      ∧ b.read = .ok (ps.flatMap (Piece.expected lib)
          ++ Fmt.textField { spec with precision := none } (signOf spec bits ++ wordOf spec small big)) := by
  obtain ⟨b, e, g⟩ := writeAll_spec hlib ps hp _ _ Good.init (by rw [List.nil_append]; exact hlen)
  rw [List.nil_append] at g
  have hpad : ∀ s : Str, Fmt.pad spec s = Fmt.textField { spec with precision := none } s := by
    intro s
    unfold Fmt.pad Fmt.textField Fmt.cutText
    simp only
    split
    · cases spec.align <;> rfl
    · rename_i h
      have h0 : spec.width - s.length = 0 := by omega
      rw [h0]
      cases spec.align <;> simp
  have hlw : (wordOf spec small big).length < 2 ^ 30 := by
    unfold wordOf
    rcases hn with ⟨_, rfl, rfl⟩ | ⟨_, rfl, rfl⟩ <;> split <;> decide
  obtain ⟨b', e', g'⟩ := writeWord_spec (spec := spec) (sign := signChar spec bits) g (wordOf spec small big) hlen hw hlw
  rw [hpad, signChar_eq spec hb] at g'
  refine ⟨b', ?_, read_good g'⟩
  rw [writeAll_append lib ps _ _ _ e, writeAll_one, writeDouble_known lib true hk]
  rcases hn with ⟨hn, rfl, rfl⟩ | ⟨hn, rfl, rfl⟩
  · rw [if_pos ((isNan_iff hb).2 hn), e']; rfl
  · have hnn : ¬isNan (magnitude bits) = true := by
      rw [isNan_iff hb]; unfold NotANumber; unfold Infinite at hn; omega
    rw [if_neg hnn, if_pos ((isInf_iff hb).2 hn), e']; rfl

/-- Any other conversion is refused, whatever the value, and nothing is written. -/
theorem C71_unknown (lib : Libc) (room : Bool) (spec : Spec) (bits : Nat) (b : Buf) (c : Char) (hc : spec.type = some c)
    (hu : c ∉ ch! "aAeEfFgG") :
    writeDouble lib room spec bits b = .error (.format (Fmt.refusal c (ch! "double"))) := by
  simp only [List.mem_cons, List.not_mem_nil, or_false, not_or] at hu
  have h1 : c ∉ ch! "efga" := by simp; exact ⟨hu.2.2.1, hu.2.2.2.2.1, hu.2.2.2.2.2.2.1, hu.1⟩
  have h2 : c ∉ ch! "FEGA" := by simp; exact ⟨hu.2.2.2.2.2.1, hu.2.2.2.1, hu.2.2.2.2.2.2.2, hu.2.1⟩
  unfold writeDouble
  simp only [hc, if_neg h1, if_neg h2, bind, Except.bind, Fmt.unknownType_eq]

/-! ## Where it fails -/

/-- A number on the left of its field is padded with spaces whatever the fill character is. -/
theorem C71_fails_left (lib : Libc) (hlib : lib.Sane) (ps : List Piece) (hp : ∀ p ∈ ps, p.Plain lib) (spec : Spec)
    (bits : Nat) (hk : Known spec) (hb : bits < 2 ^ 64) (hf : Finite bits) (hl : spec.align = .left) (hfill : spec.fill ≠ ' ')
    (hgap : (signOf spec bits ++ digitsOf lib spec bits).length < spec.width) (hw : spec.width < 2 ^ 31)
    (hlen : (ps.flatMap (Piece.expected lib)).length < 2 ^ 61) :
    ∃ b gap, writeAll lib Buf.init (ps ++ [.number spec bits]) = .ok b
      ∧ b.read = .ok (ps.flatMap (Piece.expected lib) ++ (signOf spec bits ++ digitsOf lib spec bits ++ List.replicate gap ' '))
      ∧ b.read ≠ .ok (ps.flatMap (Piece.expected lib) ++ field lib spec bits) := by
  obtain ⟨b, e, g⟩ := writeAll_spec hlib ps hp _ _ Good.init (by rw [List.nil_append]; exact hlen)
  rw [List.nil_append] at g
  rw [List.length_append] at hgap
  obtain ⟨b', e', g'⟩ := finite_spec hlib hk hb hf hw (by omega) g hlen (by simp [hl])
  rw [if_pos hl] at g'
  refine ⟨b', _, by rw [writeAll_append lib ps _ _ _ e, writeAll_one, e'], read_good g', ?_⟩
  rw [read_good g']
  intro heq
  injection heq with heq
  have h2 := List.append_cancel_left heq
  unfold field layout at h2
  simp only [hl, ← List.length_append] at h2
  have h3 := List.append_cancel_left h2
  have hpos : spec.width - (signOf spec bits ++ digitsOf lib spec bits).length ≠ 0 := by
    rw [List.length_append]; omega
  obtain ⟨k, hk⟩ := Nat.exists_eq_succ_of_ne_zero hpos
  rw [hk, List.replicate_succ, List.replicate_succ] at h3
  injection h3 with h3 _
  exact hfill h3.symm

/-- Growing leaves everything behind the text unwritten. -/
theorem resize_fresh {b : Buf} {T : Str} (hg : Good b T) (m : Nat) (hm : m < 2 ^ 62) (hlt : b.capacity < m) :
    ∃ b' k, b.resize true m = .ok b' ∧ Like b' (T.map some ++ List.replicate k none) m ∧ m ≤ T.length + k := by
  have hc := hg.cap
  have hle := hg.le
  have hsz := hg.size
  unfold Buf.resize
  rw [if_pos hlt]
  unfold Buf.grow
  simp only [Buffer.readRaw_good hg]
  have hmod : (b.capacity + b.capacity / 2) % 2 ^ 64 = b.capacity + b.capacity / 2 := Nat.mod_eq_of_lt (by omega)
  rw [hmod]
  generalize hmm : max m (b.capacity + b.capacity / 2) = c
  rw [if_neg (by simp; omega), if_pos (by omega)]
  refine ⟨_, c - b.size, rfl, ?_, by omega⟩
  refine ⟨rfl, rfl, by simp; omega, by simp; omega, by simp; omega, hg.inl, (fun h => nomatch h), ?_⟩
  show inlineSize ≤ c
  have := hg.min; omega

theorem mapM_none {a : List (Option Char)} (h : none ∈ a) : a.mapM id = none := by
  induction a with
  | nil => cases h
  | cons o a ih =>
    rw [List.mapM_cons]
    cases o with
    | none => rfl
    | some c =>
      rcases List.mem_cons.1 h with h | h
      · cases h
      · rw [ih h]; rfl

/-- A centred number without a sign whose field does not fit the buffer, while its digits do, is lost: they were written
behind the text, and the buffer that is made for the field takes over the text only. Unwritten memory takes their
place. -/
theorem C71_fails_center (lib : Libc) (hlib : lib.Sane) (ps : List Piece) (hp : ∀ p ∈ ps, p.Plain lib) (b : Buf)
    (hrun : writeAll lib Buf.init ps = .ok b) (spec : Spec) (bits : Nat) (hk : Known spec) (hb : bits < 2 ^ 64)
    (hf : Finite bits) (hc : spec.align = .center) (hsign : signOf spec bits = []) (hw : spec.width < 2 ^ 31)
    (hlen : (ps.flatMap (Piece.expected lib)).length < 2 ^ 61)
    (hfit : (ps.flatMap (Piece.expected lib)).length + (digitsOf lib spec bits).length < b.capacity)
    (hwide : b.capacity < (ps.flatMap (Piece.expected lib)).length + spec.width) :
    ∃ b', writeAll lib Buf.init (ps ++ [.number spec bits]) = .ok b' ∧ b'.read = .error (.ub .uninitialised) := by
  obtain ⟨b0, e, g⟩ := writeAll_spec hlib ps hp _ _ Good.init (by rw [List.nil_append]; exact hlen)
  rw [hrun] at e
  cases e
  rw [List.nil_append] at g
  generalize ps.flatMap (Piece.expected lib) = T at *
  obtain ⟨rest, hl, hrest⟩ := like_of_good g
  have hnone : signChar spec bits = none := by
    cases h : signChar spec bits with
    | none => rfl
    | some c => rw [← signChar_eq spec hb, h] at hsign; cases hsign
  have hlt : (digitsOf lib spec bits).length < 2 ^ 31 := by omega
  obtain ⟨b1, gg, z, e1, l1, hgl, hz, hz2⟩ := attempt_place (spec := spec) (sign := none) hlt hlen 198 hl (sl := 0)
    (by omega) (by omega)
  have hgn : gg = [] := List.eq_nil_of_length_eq_zero hgl
  subst hgn
  have hzl := hz2 (by omega)
  generalize hB : digitsOf lib spec bits = body at *
  have g1 : Good b1 T := Like.good (rest := body.map some ++ z) (by simpa using l1)
  have hcap1 : b1.capacity = b.capacity := by rw [l1.cap]; simp; omega
  obtain ⟨d, ds, hd, hne⟩ := hlib spec.hash spec.precision (spec.type.getD 'g') (magnitude bits)
  have hbody : body = d :: ds := by rw [← hB]; exact hd
  have hpos : 0 < body.length := by rw [hbody]; simp
  obtain ⟨b2, k, e2, l2, hk2⟩ := resize_fresh g1 (T.length + spec.width) (by omega) (by omega)
  generalize hleft : (spec.width - body.length) / 2 = left
  have hsplit : List.replicate k (none : Option Char) = List.replicate body.length none ++ List.replicate left none
      ++ (List.replicate (spec.width - body.length - left) none ++ List.replicate (k - spec.width) none) := by
    simp only [List.replicate_append_replicate]
    congr 1; omega
  rw [hsplit] at l2
  obtain ⟨b3, e3, l3⟩ := Like.shift (x := T.map some) (w := List.replicate body.length none) (y := List.replicate left none)
    (z := List.replicate (spec.width - body.length - left) none ++ List.replicate (k - spec.width) none)
    (by simp only [List.append_assoc] at l2 ⊢; exact l2) (p := T.length) (q := T.length + left) (m := body.length) (k := left) (by simp) (by simp) rfl (by simp)
  obtain ⟨b4, e4, l4⟩ := Like.copyTo (x := T.map some)
    (y := (List.replicate body.length none ++ List.replicate left none).take left)
    (z := List.replicate body.length none ++
      (List.replicate (spec.width - body.length - left) none ++ List.replicate (k - spec.width) none))
    (by simp only [List.append_assoc] at l3 ⊢; exact l3) (List.replicate left spec.fill) (by simp) (i := T.length) (by simp)
  obtain ⟨b5, e5, l5⟩ := Like.copyTo (x := T.map some ++ (List.replicate left spec.fill).map some ++ List.replicate body.length none)
    (y := List.replicate (spec.width - body.length - left) none) (z := List.replicate (k - spec.width) none)
    (by simp only [List.append_assoc] at l4 ⊢; exact l4) (List.replicate (spec.width - body.length - left) spec.fill) (by simp)
    (i := T.length + left + body.length) (by simp; omega)
  refine ⟨b5, ?_, ?_⟩
  · rw [writeAll_append lib ps _ _ _ hrun, writeAll_one, writeDouble_finite lib true hk hb hf, hnone]
    have hB' : lib spec.hash spec.precision (spec.type.getD 'g') (magnitude bits) = body := by rw [hd, hbody]
    have hgt : spec.width > body.length := by omega
    have hplace : place true spec none b1 (T.length + 0) body.length = .ok b5 := by
      simp only [place, putSign, bind, Except.bind, Option.isSome_none, Bool.false_eq_true, if_false, hc, hgt, and_self,
        if_true, l1.size, hleft, e2, e3, e4, e5]
    have : writeFinite lib true spec none (spec.type.getD 'g') (magnitude bits) b = .ok b5 := by
      rw [← hplace, ← e1]
      unfold writeFinite
      simp [bind, Except.bind, hB', g.size, printfWidth, hc]
    rw [this]; rfl
  · unfold Buf.read Buffer.readRaw
    rw [l5.arr, l5.size, if_pos (by simp; omega)]
    simp only
    rw [mapM_none]
    have hin : (none : Option Char) ∈ List.replicate body.length none := by
      rw [List.mem_replicate]; exact ⟨by omega, rfl⟩
    rw [show T.length + spec.width = (T.map some ++ (List.replicate left spec.fill).map some ++ List.replicate body.length none
        ++ (List.replicate (spec.width - body.length - left) spec.fill).map some).length by simp; omega, List.take_left]
    simp only [List.mem_append]
    exact .inl (.inr hin)

/-- Words are padded like text also where numbers are not: to the right by default, and with zeros behind the word. -/
theorem C71_fails_words (lib : Libc) (bits : Nat) (hb : bits = 2047 * 2 ^ 52) :
    (∃ b, writeDouble lib true { width := 6 } bits Buf.init = .ok b ∧ b.read = .ok (ch! "inf   ")
      ∧ layout { width := 6 } [] (ch! "inf") = ch! "   inf")
    ∧ ∃ b, writeDouble lib true { width := 6, align := .numeric, fill := '0' } bits Buf.init = .ok b
      ∧ b.read = .ok (ch! "inf000")
      ∧ layout { width := 6, align := .numeric, fill := '0' } [] (ch! "inf") = ch! "000inf" := by
  subst hb
  have key : ∀ spec : Spec, Known spec → spec.width < 2 ^ 31 → ∃ b, writeDouble lib true spec (2047 * 2 ^ 52) Buf.init = .ok b
      ∧ b.read = .ok (Fmt.pad spec ((signChar spec (2047 * 2 ^ 52)).toList ++ wordOf spec (ch! "inf") (ch! "INF"))) := by
    intro spec hk hw
    obtain ⟨b', e', g'⟩ := writeWord_spec (spec := spec) (sign := signChar spec (2047 * 2 ^ 52)) Good.init
      (wordOf spec (ch! "inf") (ch! "INF")) (by decide) hw (by unfold wordOf; split <;> decide)
    refine ⟨b', ?_, by simpa using read_good g'⟩
    rw [writeDouble_known lib true hk, if_neg (by decide), if_pos (by decide), e']
    rfl
  obtain ⟨b1, e1, r1⟩ := key { width := 6 } (.inl rfl) (by decide)
  obtain ⟨b2, e2, r2⟩ := key { width := 6, align := .numeric, fill := '0' } (.inl rfl) (by decide)
  exact ⟨⟨b1, e1, by rw [r1]; rfl, rfl⟩, ⟨b2, e2, by rw [r2]; rfl, rfl⟩⟩

theorem grow_capacity {b b' : Buf} {room : Bool} {n : Nat} (h : b.grow room n = .ok b') :
    b'.capacity = max n ((b.capacity + b.capacity / 2) % 2 ^ 64) := by
  unfold Buf.grow at h
  simp only at h
  split at h
  · cases h
  · split at h
    · cases h
    · split at h
      · cases h; rfl
      · cases h

theorem attempt_huge {spec : Spec} {sign : Option Char} {text : Str} {T : Str} (hlen : 2 ^ 31 ≤ text.length) (offset : Nat)
    (fuel : Nat) : ∀ (b : Buf), Good b T → offset ≤ b.capacity → 2 ^ 63 * 3 ^ fuel ≤ b.capacity * 4 ^ fuel →
    attempt true spec sign text offset fuel b = .error .alloc := by
  induction fuel with
  | zero => intro b g _ h; have := g.cap; omega
  | succ fuel ih =>
    intro b g ho h
    have hc := g.cap
    unfold attempt
    rw [if_neg (by omega)]
    unfold snprintf
    rw [if_pos hlen]
    simp only
    unfold Buf.reserve
    rw [if_pos (by omega)]
    rcases Buffer.grow_spec g true (b.capacity + 1) (by omega) (by omega) with ⟨e, _⟩ | ⟨b', e, g', hle, _, _⟩
    · rw [e]
    · rw [e]
      have hcap := grow_capacity e
      rw [Nat.mod_eq_of_lt (by omega)] at hcap
      refine ih b' g' (by omega) ?_
      have h43 : 4 * b.capacity ≤ 3 * b'.capacity := by
        have : inlineSize = 500 := rfl
        have := g.min; omega
      rw [Nat.pow_succ, Nat.pow_succ] at h
      have h5 : b.capacity * (4 ^ fuel * 4) ≤ 3 * (b'.capacity * 4 ^ fuel) := by
        calc b.capacity * (4 ^ fuel * 4) = (4 * b.capacity) * 4 ^ fuel := by
              rw [← Nat.mul_assoc, Nat.mul_right_comm, Nat.mul_comm b.capacity 4]
          _ ≤ (3 * b'.capacity) * 4 ^ fuel := Nat.mul_le_mul_right _ h43
          _ = 3 * (b'.capacity * 4 ^ fuel) := Nat.mul_assoc _ _ _
      have h6 : 3 * (2 ^ 63 * 3 ^ fuel) ≤ 3 * (b'.capacity * 4 ^ fuel) := by
        calc 3 * (2 ^ 63 * 3 ^ fuel) = 2 ^ 63 * (3 ^ fuel * 3) := by
              rw [Nat.mul_comm 3, Nat.mul_assoc]
          _ ≤ _ := Nat.le_trans h h5
      exact Nat.le_of_mul_le_mul_left h6 (by decide)

/-- A number of 2^31 characters or more, such as `1.0` with a precision of 2147483647, never comes out: the C library
refuses it, and the writer asks for more and more memory until there is none. -/
theorem C71_fails_huge (lib : Libc) (hlib : lib.Sane) (ps : List Piece) (hp : ∀ p ∈ ps, p.Plain lib) (spec : Spec)
    (bits : Nat) (hk : Known spec) (hb : bits < 2 ^ 64) (hf : Finite bits) (hw : spec.width < 2 ^ 31)
    (hlen : (ps.flatMap (Piece.expected lib)).length < 2 ^ 61) (hs : 2 ^ 31 ≤ (digitsOf lib spec bits).length) :
    writeAll lib Buf.init (ps ++ [.number spec bits]) = .error (.buffer .alloc) := by
  obtain ⟨b, e, g⟩ := writeAll_spec hlib ps hp _ _ Good.init (by rw [List.nil_append]; exact hlen)
  rw [List.nil_append] at g
  generalize ps.flatMap (Piece.expected lib) = T at *
  rw [writeAll_append lib ps _ _ _ e, writeAll_one, writeDouble_finite lib true hk hb hf]
  have hpow : ∀ c, 500 ≤ c → 2 ^ 63 * 3 ^ 200 ≤ c * 4 ^ 200 := by
    intro c hc
    exact Nat.le_trans (by decide) (Nat.mul_le_mul_right (4 ^ 200) hc)
  have hplen : ∀ l w, 2 ^ 31 ≤ (printfWidth l w (lib spec.hash spec.precision (spec.type.getD 'g') (magnitude bits))).length := by
    intro l w
    have hs' : 2 ^ 31 ≤ (lib spec.hash spec.precision (spec.type.getD 'g') (magnitude bits)).length := hs
    unfold printfWidth
    split <;> simp only [List.length_append] <;> omega
  obtain ⟨rest, hl, hrest⟩ := like_of_good g
  have h500 : inlineSize = 500 := rfl
  have hmin := g.min
  have hle := g.le
  unfold writeFinite
  simp only [bind, Except.bind]
  cases hsc : signChar spec bits with
  | none =>
    simp only [Option.isSome_none, Bool.false_eq_true, if_false]
    rw [attempt_huge (hplen _ _) b.size _ b g (by rw [g.size]; omega) (hpow _ (by omega))]
    rfl
  | some c =>
    simp only [Option.isSome_some, if_true]
    obtain ⟨b0, rest0, e0, l0, hm, _⟩ := hl.reserve (b.size + max spec.width 1) (by rw [g.size]; omega)
    rw [e0]
    have hc0 := l0.cap
    have hmin0 := l0.min
    rw [g.size] at hm
    simp only [List.length_append, List.length_map] at hc0
    simp only
    rw [attempt_huge (hplen _ _) (b.size + 1) _ b0 l0.good (by rw [g.size]; omega) (hpow _ (by omega))]
    rfl

/-! ## Cases -/

/-- A C library for the examples: the exponent in decimal for every number. -/
def sample : Libc := fun _ _ _ m => '1' :: ('.' :: Nat.toDigits 10 (exponent m))

theorem sample_sane : sample.Sane := fun _ _ _ _ => ⟨'1', _, rfl, by decide⟩

/-- Minus one, centred in ten stars: the hypotheses of the first theorem. -/
example : Plain sample { align := .center, fill := '*', width := 10 } (2 ^ 63 + 1023 * 2 ^ 52) := by
  refine ⟨.inl rfl, by decide, by unfold Finite; decide, by decide, by decide, (fun h => nomatch h), fun _ => .inl (by decide)⟩

example : field sample { align := .center, fill := '*', width := 10 } (2 ^ 63 + 1023 * 2 ^ 52) = ch! "*-1.1023**" := by
  decide

/-- And it comes out like that behind a text. -/
example : ∃ b, writeAll sample Buf.init [.text (ch! "x="), .number { align := .center, fill := '*', width := 10 } (2 ^ 63 + 1023 * 2 ^ 52)]
    = .ok b ∧ b.read = .ok (ch! "x=*-1.1023**") := by
  refine C71_numbers_partial sample sample_sane [.text (ch! "x="), .number { align := .center, fill := '*', width := 10 } (2 ^ 63 + 1023 * 2 ^ 52)] ?_ (by decide)
  intro p hp
  simp only [List.mem_cons, List.not_mem_nil, or_false] at hp
  rcases hp with rfl | rfl
  · trivial
  · exact ⟨.inl rfl, by decide, by unfold Finite; decide, by decide, by decide, (fun h => nomatch h), fun _ => .inl (by decide)⟩

/-- `{:^600}` of `1.0` at the start of a message prints unwritten memory. -/
example : ∃ b, writeAll sample Buf.init [.number { align := .center, width := 600 } (1023 * 2 ^ 52)] = .ok b
    ∧ b.read = .error (.ub .uninitialised) :=
  C71_fails_center sample sample_sane [] (by simp) Buf.init rfl { align := .center, width := 600 } (1023 * 2 ^ 52)
    (.inl rfl) (by decide) (by unfold Finite; decide) rfl (by decide) (by decide) (by decide) (by decide) (by decide)

/-- `{:*<9}` of `1.0` is padded with spaces. -/
example : ∃ b gap, writeAll sample Buf.init [.number { align := .left, fill := '*', width := 9 } (1023 * 2 ^ 52)] = .ok b
    ∧ b.read = .ok (ch! "1.1023" ++ List.replicate gap ' ') ∧ b.read ≠ .ok (ch! "1.1023***") :=
  C71_fails_left sample sample_sane [] (by simp) { align := .left, fill := '*', width := 9 } (1023 * 2 ^ 52)
    (.inl rfl) (by decide) (by unfold Finite; decide) rfl (by decide) (by decide) (by decide) (by decide)

/-- `{:+E}` of infinity. -/
example : NotANumber (2047 * 2 ^ 52 + 1) ∧ Infinite (2047 * 2 ^ 52) ∧ wordOf { type := some 'E' } (ch! "inf") (ch! "INF") = ch! "INF" := by
  unfold NotANumber Infinite; decide

/-- `{:d}` of a floating point number. -/
example : 'd' ∉ ch! "aAeEfFgG" := by decide

/-- A C library that writes as many digits as the precision says. -/
example : 2 ^ 31 ≤ (digitsOf (fun _ p _ _ => '1' :: List.replicate (p.getD 6) '0') { precision := some (2 ^ 31 - 1) } 0).length := by
  unfold digitsOf
  rw [List.length_cons, List.length_replicate]
  decide

end Blackhole.Double
