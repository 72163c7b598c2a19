import Verif.ArrayWriter.Spec
import Verif.Buffer.Props
import Verif.Double.Props

/-! # Writing into an array of the caller: C93 -/

namespace Blackhole.ArrayWriter
open Buffer (Arr Buf Op Err arr_setArr copyTo_spec)

/-! ## Proofs -/

theorem grow_eq (b : Buf) (n : Nat) : b.grow false n = grow b n := by
  simp [Buf.grow, grow]

/-- The buffer is the page. -/
structure Is (b : Buf) (p : Page) : Prop where
  heap : b.heap = none
  arr : b.inl = p.array
  cap : b.capacity = p.array.length
  size : b.size = p.text.length
  le : p.text.length ≤ p.array.length
  text : p.array.take p.text.length = p.text.map some
  small : p.array.length < 2 ^ 63

theorem Is.arr_eq {b : Buf} {p : Page} (h : Is b p) : b.arr = p.array := by
  simp [Buf.arr, h.heap, h.arr]

theorem Is.make (array : Arr) (h : array.length < 2 ^ 63) : Is (make array) ⟨array, []⟩ :=
  ⟨rfl, rfl, rfl, rfl, Nat.zero_le _, rfl, h⟩

/-- Writing behind the text, if there is room. -/
theorem Is.copy {b : Buf} {p : Page} (h : Is b p) (s : Str) (hs : p.text.length + s.length ≤ p.array.length) (n : Nat) :
    ∃ b', Buf.copyTo { b with size := n } p.text.length s = .ok b' ∧ b'.size = n
      ∧ Is { b' with size := p.text.length + s.length } (p.add s).1 := by
  have harr : Buf.arr { b with size := n } = p.array := h.arr_eq
  obtain ⟨b', e, ha, hsz, hc, _, hn⟩ := copyTo_spec s { b with size := n } p.text.length (by rw [harr]; exact hs)
  rw [harr] at ha
  have hheap : b'.heap = none := hn.2 h.heap
  have hinl : b'.inl = p.array.take p.text.length ++ s.map some ++ p.array.drop (p.text.length + s.length) := by
    simpa [Buf.arr, hheap] using ha
  refine ⟨b', e, hsz, ?_⟩
  unfold Page.add
  rw [if_pos hs]
  have hlen : (p.array.take p.text.length ++ s.map some ++ p.array.drop (p.text.length + s.length)).length
      = p.array.length := by
    simp only [List.length_append, List.length_take, List.length_drop, List.length_map]; omega
  constructor
  · exact hheap
  · exact hinl
  · show b'.capacity = _
    rw [hlen, hc]; exact h.cap
  · simp
  · rw [hlen]; simpa using hs
  · rw [h.text]
    exact Buffer.take_text _ _ _
  · rw [hlen]; exact h.small

theorem add_no (p : Page) (s : Str) (h : ¬ p.text.length + s.length ≤ p.array.length) : p.add s = (p, false) := by
  unfold Page.add; rw [if_neg h]

theorem add_yes (p : Page) (s : Str) (h : p.text.length + s.length ≤ p.array.length) : (p.add s).2 = true := by
  unfold Page.add; rw [if_pos h]

theorem op_spec {b : Buf} {p : Page} (h : Is b p) (c : Call) (hs : c.Sane) :
    ((p.call c).2 = false ∧ b.op c.op = .error .alloc ∧ (p.call c).1 = p)
    ∨ ((p.call c).2 = true ∧ ∃ b', b.op c.op = .ok b' ∧ Is b' (p.call c).1) := by
  have hsz := h.size
  have hcap := h.cap
  have hle := h.le
  have hsm := h.small
  cases c with
  | text s =>
    simp only [Call.Sane] at hs
    have hmod : (b.size + s.length) % 2 ^ 64 = p.text.length + s.length := by
      rw [hsz]; exact Nat.mod_eq_of_lt (by omega)
    simp only [Call.op, Buf.op, Buf.append, hmod, bind, Except.bind, Page.call]
    by_cases hfit : p.text.length + s.length ≤ p.array.length
    · right
      rw [if_neg (by omega)]
      obtain ⟨b', e, hsz', hb'⟩ := h.copy s hfit b.size
      have e' : b.copyTo b.size s = .ok b' := by rw [hsz]; exact e
      simp only [e']
      refine ⟨add_yes p s hfit, _, rfl, ?_⟩
      have : b'.size = p.text.length := by rw [hsz', hsz]
      simp only [this]
      exact hb'
    · left
      rw [if_pos (by omega), grow_eq, add_no p s hfit]
      exact ⟨rfl, rfl, rfl⟩
  | char c =>
    have hmod : (b.size + 1) % 2 ^ 64 = p.text.length + 1 := by
      rw [hsz]; exact Nat.mod_eq_of_lt (by omega)
    have hset : ∀ b : Buf, b.copyTo b.size [c] = b.set b.size c := by
      intro b; simp only [Buf.copyTo]; cases b.set b.size c <;> rfl
    simp only [Call.op, Buf.op, Buf.pushBack, hmod, bind, Except.bind, Page.call]
    by_cases hfit : p.text.length + [c].length ≤ p.array.length
    · right
      simp only [List.length_singleton] at hfit
      rw [if_neg (by omega)]
      obtain ⟨b', e, hsz', hb'⟩ := h.copy [c] hfit b.size
      have e' : b.copyTo b.size [c] = .ok b' := by rw [hsz]; exact e
      rw [hset] at e'
      simp only [e']
      refine ⟨add_yes p [c] hfit, _, rfl, ?_⟩
      have : b'.size = p.text.length := by rw [hsz', hsz]
      simp only [this]
      exact hb'
    · left
      simp only [List.length_singleton] at hfit
      rw [if_pos (by omega), grow_eq, add_no p [c] hfit]
      exact ⟨rfl, rfl, rfl⟩
  | field s =>
    simp only [Call.Sane] at hs
    have hmod : (b.size + s.length) % 2 ^ 64 = p.text.length + s.length := by
      rw [hsz]; exact Nat.mod_eq_of_lt (by omega)
    simp only [Call.op, Buf.op, Buf.region, hmod, bind, Except.bind, Buf.resize, Page.call]
    by_cases hfit : p.text.length + s.length ≤ p.array.length
    · right
      rw [if_neg (by omega)]
      obtain ⟨b', e, hsz', hb'⟩ := h.copy s hfit (p.text.length + s.length)
      simp only [hsz]
      refine ⟨add_yes p s hfit, b', e, ?_⟩
      have : { b' with size := p.text.length + s.length } = b' := by rw [← hsz']
      rw [this] at hb'
      exact hb'
    · left
      rw [if_pos (by omega), grow_eq, add_no p s hfit]
      exact ⟨rfl, rfl, rfl⟩
  | clear =>
    right
    refine ⟨rfl, _, rfl, ?_⟩
    exact ⟨h.heap, h.arr, h.cap, rfl, Nat.zero_le _, by simp [Page.call], h.small⟩

theorem run_spec (cs : List Call) (hs : ∀ c ∈ cs, c.Sane) : ∀ {b : Buf} {p : Page}, Is b p →
    ∃ b', run b cs = .ok (b', (p.calls cs).2) ∧ Is b' (p.calls cs).1 := by
  induction cs with
  | nil => intro b p h; exact ⟨b, rfl, h⟩
  | cons c cs ih =>
    intro b p h
    have hs' : ∀ c ∈ cs, c.Sane := fun x hx => hs x (List.mem_cons_of_mem _ hx)
    rcases op_spec h c (hs c (List.mem_cons_self ..)) with ⟨h1, h2, h3⟩ | ⟨h1, b1, h2, h3⟩
    · obtain ⟨b', e, hb'⟩ := ih hs' h
      refine ⟨b', ?_, ?_⟩
      · unfold run at e ⊢
        simp only [List.map_cons, Buf.run, h2, e, Except.map, Page.calls, h1, h3]
      · simp only [Page.calls, h3]; exact hb'
    · obtain ⟨b', e, hb'⟩ := ih hs' h3
      refine ⟨b', ?_, ?_⟩
      · unfold run at e ⊢
        simp only [List.map_cons, Buf.run, h2, e, Except.map, Page.calls, h1]
      · simp only [Page.calls]; exact hb'

theorem Is.read {b : Buf} {p : Page} (h : Is b p) : b.read = .ok p.text := by
  have hr : Buffer.readRaw b.arr b.size = .ok (p.text.map some) := by
    unfold Buffer.readRaw
    rw [h.arr_eq, h.size, if_pos h.le, h.text]
  unfold Buf.read
  rw [hr]
  have : ∀ t : Str, (t.map some).mapM id = some t := by
    intro t
    induction t with
    | nil => rfl
    | cons c t ih => simp [List.mapM_cons, ih]
  simp [this]

/-! ## Theorems -/

/-- Whatever is written into an array of whatever size and contents: every call writes all of its characters behind
those already there if the array has room for them, and otherwise throws and writes none; nothing else in the array is
touched, nothing outside of it is, and the text that the writer gives is what was written since the last `clear`. -/
theorem C93_array (array : Arr) (hlen : array.length < 2 ^ 63) (cs : List Call) (hs : ∀ c ∈ cs, c.Sane) :
    ∃ b, run (make array) cs = .ok (b, (Page.calls ⟨array, []⟩ cs).2)
      ∧ b.inl = (Page.calls ⟨array, []⟩ cs).1.array ∧ b.heap = none
      ∧ b.read = .ok (Page.calls ⟨array, []⟩ cs).1.text := by
  obtain ⟨b, e, h⟩ := run_spec cs hs (Is.make array hlen)
  exact ⟨b, e, h.arr, h.heap, h.read⟩

theorem calls_append (as bs : List Call) : ∀ p : Page, (p.calls (as ++ bs)).1 = ((p.calls as).1.calls bs).1 := by
  induction as with
  | nil => intro p; rfl
  | cons a as ih => intro p; simp only [List.cons_append, Page.calls, ih]

/-- In particular, texts that fit the array together come out one after the other, up to the last element of it. -/
theorem C93_exact_fit (array : Arr) (hlen : array.length < 2 ^ 63) (pieces : List Str)
    (hfit : pieces.flatten.length ≤ array.length) :
    ∃ b, run (make array) (pieces.map .text) = .ok (b, pieces.map fun _ => true)
      ∧ b.inl = pieces.flatten.map some ++ array.drop pieces.flatten.length ∧ b.read = .ok pieces.flatten := by
  have key : ∀ (ps : List Str) (p : Page), p.text.length ≤ p.array.length →
      p.array.take p.text.length = p.text.map some → p.text.length + ps.flatten.length ≤ p.array.length →
      (p.calls (ps.map .text)).2 = ps.map (fun _ => true)
      ∧ (p.calls (ps.map .text)).1.text = p.text ++ ps.flatten
      ∧ (p.calls (ps.map .text)).1.array
        = (p.text ++ ps.flatten).map some ++ p.array.drop (p.text.length + ps.flatten.length) := by
    intro ps
    induction ps with
    | nil =>
      intro p _ h2 _
      refine ⟨rfl, by simp [Page.calls], ?_⟩
      simp only [List.map_nil, Page.calls, List.flatten_nil, List.append_nil, List.length_nil, Nat.add_zero]
      rw [← h2, List.take_append_drop]
    | cons s ps ih =>
      intro p h1 h2 h3
      simp only [List.flatten_cons, List.length_append] at h3
      have hs : p.text.length + s.length ≤ p.array.length := by omega
      have hadd : p.add s = (⟨p.array.take p.text.length ++ s.map some
          ++ p.array.drop (p.text.length + s.length), p.text ++ s⟩, true) := by
        unfold Page.add; rw [if_pos hs]
      have hl : (p.array.take p.text.length ++ s.map some ++ p.array.drop (p.text.length + s.length)).length
          = p.array.length := by
        simp only [List.length_append, List.length_take, List.length_drop, List.length_map]; omega
      obtain ⟨i1, i2, i3⟩ := ih (p.add s).1 (by rw [hadd]; simp only [hl, List.length_append]; exact hs)
        (by rw [hadd]; simp only [h2]; exact Buffer.take_text _ _ _)
        (by rw [hadd]; simp only [hl, List.length_append]; omega)
      refine ⟨?_, ?_, ?_⟩
      · simp only [List.map_cons, Page.calls, Page.call, i1]
        simp only [hadd]
      · simp only [List.map_cons, Page.calls, Page.call, i2]
        rw [hadd]; simp
      · simp only [List.map_cons, Page.calls, Page.call, i3]
        rw [hadd]
        simp only [List.append_assoc, List.flatten_cons, h2, List.length_append]
        rw [← List.append_assoc (p.text.map some), ← List.map_append, List.drop_append,
          List.drop_eq_nil_of_le (by simp)]
        simp only [List.nil_append, List.length_map, List.length_append, List.drop_drop]
        rw [show p.text.length + s.length + (p.text.length + s.length + ps.flatten.length
          - (p.text.length + s.length)) = p.text.length + (s.length + ps.flatten.length) by omega]
  by_cases hbig : ∀ s ∈ pieces, s.length < 2 ^ 63
  · obtain ⟨b, e, ha, _, hr⟩ := C93_array array hlen (pieces.map .text) (by
      intro c hc
      obtain ⟨s, hs, rfl⟩ := List.mem_map.1 hc
      exact hbig s hs)
    obtain ⟨k1, k2, k3⟩ := key pieces ⟨array, []⟩ (Nat.zero_le _) rfl (by simpa using hfit)
    rw [k1] at e
    rw [k2] at hr
    rw [k3] at ha
    exact ⟨b, e, by simpa using ha, by simpa using hr⟩
  · exfalso
    apply hbig
    intro s hs
    have : s.length ≤ pieces.flatten.length := by
      obtain ⟨a, b, rfl⟩ := List.append_of_mem hs
      simp; omega
    omega

theorem add_length (p : Page) (s : Str) : (p.add s).1.array.length = p.array.length := by
  unfold Page.add
  split
  · simp only [List.length_append, List.length_take, List.length_drop, List.length_map]; omega
  · rfl

theorem calls_length (cs : List Call) : ∀ p : Page, (p.calls cs).1.array.length = p.array.length := by
  induction cs with
  | nil => intro p; rfl
  | cons c cs ih =>
    intro p
    simp only [Page.calls, ih]
    cases c with
    | clear => rfl
    | text s => exact add_length p s
    | char c => exact add_length p [c]
    | field s => exact add_length p s

/-- `c_str` of a writer needs one more element than the text has: if there is one, a NUL is written there, and what is
read through the pointer is the text (up to its own first NUL)... -/
theorem C93_c_str (array : Arr) (hlen : array.length < 2 ^ 63) (cs : List Call) (hs : ∀ c ∈ cs, c.Sane) (b : Buf)
    (flags : List Bool) (hrun : run (make array) cs = .ok (b, flags))
    (hroom : (Page.calls ⟨array, []⟩ cs).1.text.length < array.length) :
    ∃ b', cStr b = .ok b' ∧ b'.read = b.read
      ∧ cText b'.inl = some ((Page.calls ⟨array, []⟩ cs).1.text.takeWhile (· ≠ '\x00')) := by
  obtain ⟨b0, e, h⟩ := run_spec cs hs (Is.make array hlen)
  rw [hrun] at e
  cases e
  have hl : (Page.calls ⟨array, []⟩ cs).1.array.length = array.length := calls_length cs _
  generalize (Page.calls ⟨array, []⟩ cs).1 = p at *
  have hcap := h.cap
  have hsz := h.size
  obtain ⟨b', ec, hs', hb'⟩ := h.copy ['\x00'] (by simp only [List.length_singleton]; omega) b.size
  have hset : b.copyTo b.size ['\x00'] = b.set b.size '\x00' := by
    simp only [Buf.copyTo]; cases b.set b.size '\x00' <;> rfl
  have ec' : b.copyTo b.size ['\x00'] = .ok b' := by rw [hsz]; exact ec
  rw [hset] at ec'
  have hadd : p.add ['\x00'] = (⟨p.array.take p.text.length ++ [some '\x00']
      ++ p.array.drop (p.text.length + 1), p.text ++ ['\x00']⟩, true) := by
    unfold Page.add; rw [if_pos (by simp only [List.length_singleton]; omega)]; rfl
  have harr : b'.inl = p.text.map some ++ [some '\x00'] ++ p.array.drop (p.text.length + 1) := by
    have := hb'.arr
    rw [hadd] at this
    rw [← h.text]; exact this
  have his : Is b' ⟨b'.inl, p.text⟩ := by
    refine ⟨hb'.heap, rfl, ?_, by rw [hs', hsz], ?_, ?_, ?_⟩
    · have h1 := hb'.cap
      have h2 := hb'.arr
      simp only at h1 h2
      rw [h2]; exact h1
    · show p.text.length ≤ b'.inl.length
      rw [harr]; simp
    · show b'.inl.take p.text.length = _
      rw [harr, List.append_assoc]; exact List.take_left' (by simp)
    · have h1 := hb'.small
      have h2 := hb'.arr
      simp only at h1 h2
      rw [h2]; exact h1
  refine ⟨b', ?_, ?_, ?_⟩
  · unfold cStr Buf.reserve
    rw [if_neg (by omega)]
    exact ec'
  · rw [his.read, h.read]
  · rw [harr, List.append_assoc, List.singleton_append]
    generalize List.drop (p.text.length + 1) p.array = rest
    generalize p.text = t
    induction t with
    | nil => simp [cText]
    | cons c t ih =>
      simp only [List.map_cons, List.cons_append, cText, List.takeWhile_cons]
      by_cases hc : c = '\x00'
      · simp [hc]
      · rw [if_neg hc, ih, if_pos (by simp [hc])]
        rfl

/-- ... but it throws if the text fills the array, although nothing is to be written. -/
theorem C93_fails_c_str (array : Arr) (hlen : array.length < 2 ^ 63) (s : Str) (hs : s.length = array.length) :
    ∃ b, run (make array) [.text s] = .ok (b, [true]) ∧ b.read = .ok s ∧ cStr b = .error .alloc := by
  obtain ⟨b, e, _, hr⟩ := C93_exact_fit array hlen [s] (by simp [hs])
  simp only [List.flatten_cons, List.flatten_nil, List.append_nil] at hr
  refine ⟨b, e, hr, ?_⟩
  obtain ⟨b0, e0, h⟩ := run_spec [.text s] (by simp [Call.Sane]; omega) (Is.make array hlen)
  have e1 : run (make array) [.text s] = .ok (b, [true]) := e
  rw [e0] at e1
  simp only [Except.ok.injEq, Prod.mk.injEq] at e1
  obtain ⟨rfl, _⟩ := e1
  have hcap : b0.capacity = array.length := by
    have h1 := h.cap
    rw [h1]
    simp only [Page.calls, Page.call, Page.add]
    split
    · simp only [List.length_append, List.length_take, List.length_drop, List.length_map]; omega
    · rfl
  have hsz : b0.size = array.length := by
    have h1 := h.size
    have h2 : (Page.calls ⟨array, []⟩ [.text s]).1.text = s := by
      simp only [Page.calls, Page.call, Page.add, List.length_nil, Nat.zero_add]
      rw [if_pos (by omega)]; rfl
    rw [h1, h2, hs]
  unfold cStr Buf.reserve
  rw [if_pos (by omega), grow_eq]
  rfl

/-! ## Floating point numbers -/

theorem copy_inl {b : Buf} (hh : b.heap = none) (i : Nat) (s : Str) (h : i + s.length ≤ b.inl.length) :
    b.copyTo i s = .ok { b with inl := b.inl.take i ++ s.map some ++ b.inl.drop (i + s.length) } := by
  have harr : b.arr = b.inl := by simp [Buf.arr, hh]
  obtain ⟨b', e, ha, h1, h2, _, h3⟩ := copyTo_spec s b i (by rw [harr]; exact h)
  have hh' := h3.2 hh
  have : b'.inl = b.inl.take i ++ s.map some ++ b.inl.drop (i + s.length) := by
    rw [harr] at ha; simpa [Buf.arr, hh'] using ha
  rw [e, ← this]
  cases b'; cases b; simp_all

theorem set_inl {b : Buf} (hh : b.heap = none) (i : Nat) (c : Char) (h : i < b.inl.length) :
    b.set i c = .ok { b with inl := b.inl.take i ++ [some c] ++ b.inl.drop (i + 1) } := by
  rw [← show b.copyTo i [c] = b.set i c by simp only [Buf.copyTo]; cases b.set i c <;> rfl]
  exact copy_inl hh i [c] h

theorem get_inl {b : Buf} (hh : b.heap = none) (i : Nat) {c : Char} (h : b.inl[i]? = some (some c)) :
    Double.get b i = .ok c := by
  simp [Double.get, Buf.arr, hh, h]

theorem reserve_no {b : Buf} {n : Nat} (h : b.capacity < n) : b.reserve false n = .error .alloc := by
  unfold Buf.reserve; rw [if_pos h, grow_eq]; rfl

theorem reserve_yes {b : Buf} {n : Nat} (h : n ≤ b.capacity) : b.reserve false n = .ok b := by
  unfold Buf.reserve; rw [if_neg (by omega)]

theorem resize_yes {b : Buf} {n : Nat} (h : n ≤ b.capacity) : b.resize false n = .ok { b with size := n } := by
  unfold Buf.resize
  simp only [if_neg (Nat.not_lt.2 h)]

theorem attempt_no {b : Buf} {p : Page} (h : Is b p) (sign : Option Char) (text : Str) (offset fuel : Nat)
    (ho : offset ≤ p.array.length) (ht : text.length < 2 ^ 31) (hno : p.array.length ≤ offset + text.length) :
    Double.attempt false {} sign text offset (fuel + 1) b = .error .alloc := by
  have hcap := h.cap
  have hlen : b.inl.length = p.array.length := by rw [h.arr]
  unfold Double.attempt Double.snprintf
  rw [if_neg (by omega), if_neg (by omega)]
  by_cases h0 : b.capacity - offset = 0
  · rw [if_pos h0]
    simp only
    rw [if_neg (by omega), reserve_no (by omega)]
  · rw [if_neg h0, copy_inl h.heap _ _ (by
      simp only [List.length_append, List.length_take, List.length_singleton]; omega)]
    simp only
    rw [if_neg (by omega), reserve_no (by simp only; omega)]

theorem attempt_yes {b : Buf} {p : Page} (h : Is b p) (sign : Option Char) (d : Char) (ds : Str) (hd : d ≠ ' ') (fuel : Nat)
    (ht : (d :: ds).length < 2 ^ 31)
    (hfit : p.text.length + sign.toList.length + (d :: ds).length < p.array.length) :
    Double.attempt false {} sign (d :: ds) (p.text.length + sign.toList.length) (fuel + 1) b = .ok
      { b with
        inl := p.text.map some ++ (sign.toList ++ d :: ds).map some ++ [some '\x00']
          ++ p.array.drop (p.text.length + sign.toList.length + (d :: ds).length + 1)
        size := p.text.length + sign.toList.length + (d :: ds).length } := by
  have hcap := h.cap
  have hsz := h.size
  have hlen : b.inl.length = p.array.length := by rw [h.arr]
  have htake : ((d :: ds).take (b.capacity - (p.text.length + sign.toList.length) - 1)) = d :: ds :=
    List.take_of_length_le (by omega)
  unfold Double.attempt Double.snprintf
  rw [if_neg (by omega), if_neg (by omega), if_neg (by omega), htake, copy_inl h.heap _ _ (by
      simp only [List.length_append, List.length_singleton]; omega)]
  simp only
  rw [if_pos (by omega)]
  unfold Double.place Double.putSign
  cases sign with
  | none =>
    simp only [bind, Except.bind, Option.isSome_none, Double.fillFront, Option.toList_none, List.length_nil,
      Nat.add_zero, List.nil_append]
    rw [if_neg (by simp)]
    simp only [Option.toList_none, List.length_nil, Nat.add_zero] at hfit
    rw [if_neg (by simp), ]
    simp only
    rw [resize_yes (by simp only [hsz]; simp only [Bool.false_eq_true, if_false]; omega)]
    simp only [h.arr, h.text, hsz, Bool.false_eq_true, if_false, Except.ok.injEq, List.map_append, List.length_append,
      List.length_singleton, List.map_cons, List.map_nil, List.append_assoc]
    rfl
  | some c =>
    simp only [Option.toList_some, List.length_singleton] at hfit
    have hl1 : (b.inl.take (p.text.length + 1)).length = p.text.length + 1 := by
      rw [List.length_take]; omega
    simp only [Option.toList_some, List.length_singleton]
    generalize hX : b.inl.take (p.text.length + 1) ++ (d :: ds ++ ['\x00']).map some
        ++ b.inl.drop (p.text.length + 1 + (d :: ds ++ ['\x00']).length) = X
    have hX0 : X[p.text.length + 1]? = some (some d) := by
      rw [← hX, List.append_assoc, List.getElem?_append_right (by omega), hl1, Nat.sub_self]
      rfl
    have hXl : p.text.length + 1 < X.length := by
      rw [← hX]
      simp only [List.length_append, hl1, List.length_map, List.length_drop, List.length_singleton, hlen]; omega
    rw [get_inl (b := { b with inl := X }) h.heap _ hX0]
    simp only [bind, Except.bind]
    rw [if_pos (Or.inr hd), set_inl (b := { b with inl := X }) h.heap _ _ (by simp only; omega)]
    simp only [Except.map, Option.isSome_some, if_true]
    rw [if_neg (by simp)]
    unfold Double.fillFront
    rw [if_neg (by simp)]
    simp only
    rw [resize_yes (by simp only [hsz]; omega)]
    simp only [hsz, Except.ok.injEq, Nat.add_sub_cancel]
    have e1 : X.take p.text.length = p.text.map some := by
      rw [← hX, List.append_assoc, List.take_append_of_le_length (by omega), List.take_take,
        Nat.min_eq_left (by omega), h.arr, h.text]
    have e2 : X.drop (p.text.length + 1)
        = (d :: ds ++ ['\x00']).map some ++ b.inl.drop (p.text.length + 1 + (d :: ds ++ ['\x00']).length) := by
      rw [← hX, List.append_assoc, List.drop_append_of_le_length (by omega), List.drop_eq_nil_of_le (by omega),
        List.nil_append]
    simp only [e1, e2, h.arr]
    simp only [List.append_assoc, List.map_append, List.map_cons, List.map_nil, List.cons_append, List.nil_append,
      List.length_append, List.length_cons, List.length_nil]
    congr 1
    omega

/-- A finite `double` written with `<<`: it goes in behind the text if there is room for its characters and one more,
into which a NUL is put; otherwise the call throws. `T` is what the writer holds already. -/
theorem C93_double (lib : Double.Libc) (hlib : lib.Sane) (array : Arr) (hlen : array.length < 2 ^ 63) (cs : List Call)
    (hs : ∀ c ∈ cs, c.Sane) (b : Buf) (flags : List Bool) (hrun : run (make array) cs = .ok (b, flags)) (T : Str)
    (hT : b.read = .ok T) (bits : Nat) (hb : bits < 2 ^ 64) (hf : Double.Finite bits)
    (hsize : (Double.digitsOf lib {} bits).length < 2 ^ 31) :
    if T.length + (Double.field lib {} bits).length < array.length then
      ∃ b', streamDouble lib bits b = .ok b' ∧ b'.read = .ok (T ++ Double.field lib {} bits) ∧ b'.heap = none
        ∧ ∃ rest, b.inl = T.map some ++ rest
          ∧ b'.inl = (T ++ Double.field lib {} bits ++ ['\x00']).map some
              ++ rest.drop ((Double.field lib {} bits).length + 1)
    else streamDouble lib bits b = .error (.buffer .alloc) := by
  obtain ⟨b0, e0, h⟩ := run_spec cs hs (Is.make array hlen)
  rw [hrun] at e0
  cases e0
  have hl : (Page.calls ⟨array, []⟩ cs).1.array.length = array.length := calls_length cs _
  generalize (Page.calls ⟨array, []⟩ cs).1 = p at *
  rw [h.read] at hT
  cases hT
  have hcap := h.cap
  have hsz := h.size
  obtain ⟨d, ds, hd, hne⟩ := hlib false none 'g' (Double.magnitude bits)
  have hdig : Double.digitsOf lib {} bits = d :: ds := hd
  have hsign := Double.signChar_eq {} hb
  have hfield : Double.field lib {} bits = (Double.signChar {} bits).toList ++ (d :: ds) := by
    unfold Double.field Fmt.layout
    simp [hsign, hdig]
  rw [hdig] at hsize
  have hwidth : Double.printfWidth (decide (Fmt.Align.default = .left)) 0 (d :: ds) = d :: ds := by
    simp [Double.printfWidth]
  have hstream : streamDouble lib bits b = Double.lift (Double.writeFinite lib false {} (Double.signChar {} bits) 'g'
      (Double.magnitude bits) b) := Double.writeDouble_finite lib false (.inl rfl) hb hf b
  rw [hstream, hfield]
  generalize Double.signChar {} bits = sign
  simp only [List.length_append]
  by_cases hfit : p.text.length + sign.toList.length + (d :: ds).length < array.length
  · rw [if_pos (by omega)]
    have hgo := attempt_yes h sign d ds hne 199 hsize (by omega)
    have hw : Double.writeFinite lib false {} sign 'g' (Double.magnitude bits) b = .ok
      { b with
        inl := p.text.map some ++ (sign.toList ++ d :: ds).map some ++ [some '\x00']
          ++ p.array.drop (p.text.length + sign.toList.length + (d :: ds).length + 1)
        size := p.text.length + sign.toList.length + (d :: ds).length } := by
      unfold Double.writeFinite
      cases sign with
      | none =>
        simp only [bind, Except.bind, Option.isSome_none, Bool.false_eq_true, if_false, hd, hsz, ite_self]
        rw [hwidth]
        exact hgo
      | some c =>
        simp only [Option.toList_some, List.length_singleton] at hfit
        simp only [bind, Except.bind, Option.isSome_some, if_true, hd, Nat.zero_sub, ite_self]
        rw [reserve_yes (by simp; omega)]
        simp only [hsz]
        rw [hwidth]
        exact hgo
    rw [hw]
    have hrest : p.array = p.text.map some ++ p.array.drop p.text.length := by
      rw [← h.text, List.take_append_drop]
    refine ⟨_, rfl, ?_, h.heap, p.array.drop p.text.length, ?_, ?_⟩
    · have hI : Is { b with
          inl := p.text.map some ++ (sign.toList ++ d :: ds).map some ++ [some '\x00']
            ++ p.array.drop (p.text.length + sign.toList.length + (d :: ds).length + 1)
          size := p.text.length + sign.toList.length + (d :: ds).length }
        ⟨p.text.map some ++ (sign.toList ++ d :: ds).map some ++ [some '\x00']
            ++ p.array.drop (p.text.length + sign.toList.length + (d :: ds).length + 1),
          p.text ++ (sign.toList ++ d :: ds)⟩ := by
        have hlen' : (p.text.map some ++ (sign.toList ++ d :: ds).map some ++ [some '\x00']
            ++ p.array.drop (p.text.length + sign.toList.length + (d :: ds).length + 1)).length = p.array.length := by
          simp only [List.length_append, List.length_map, List.length_singleton, List.length_drop]
          omega
        refine ⟨h.heap, rfl, ?_, ?_, ?_, ?_, ?_⟩
        · simp only [hlen']; exact hcap
        · simp only [List.length_append]; omega
        · simp only [hlen']; simp only [List.length_append]; omega
        · simp only
          rw [← List.map_append, List.append_assoc]
          exact List.take_left' (by simp)
        · simp only [hlen']; exact h.small
      exact hI.read
    · rw [h.arr]; exact hrest
    · simp only [List.drop_drop, List.map_append, List.map_cons, List.map_nil, List.append_assoc]
      rw [show p.text.length + sign.toList.length + (d :: ds).length + 1
        = p.text.length + (sign.toList.length + (d :: ds).length + 1) by omega]
  · rw [if_neg (by omega)]
    have hw : Double.writeFinite lib false {} sign 'g' (Double.magnitude bits) b = .error .alloc := by
      unfold Double.writeFinite
      cases sign with
      | none =>
        simp only [Option.toList_none, List.length_nil, Nat.add_zero] at hfit
        simp only [bind, Except.bind, Option.isSome_none, Bool.false_eq_true, if_false, hd, hsz, ite_self]
        rw [hwidth]
        exact attempt_no h none _ _ 199 (h.le) hsize (by omega)
      | some c =>
        simp only [Option.toList_some, List.length_singleton] at hfit
        simp only [bind, Except.bind, Option.isSome_some, if_true, hd, Nat.zero_sub, ite_self]
        by_cases h1 : p.text.length + 1 ≤ p.array.length
        · rw [reserve_yes (by simp; omega)]
          simp only [hsz]
          rw [hwidth]
          exact attempt_no h _ _ _ 199 h1 hsize (by omega)
        · rw [reserve_no (by simp; omega)]
    rw [hw]
    rfl

/-- So a number whose characters fill the array exactly is refused, although text of the same length is not. -/
theorem C93_fails_double (lib : Double.Libc) (hlib : lib.Sane) (bits : Nat) (hb : bits < 2 ^ 64) (hf : Double.Finite bits)
    (hsize : (Double.digitsOf lib {} bits).length < 2 ^ 31) (array : Arr)
    (hn : array.length = (Double.field lib {} bits).length) (hlen : array.length < 2 ^ 63) :
    streamDouble lib bits (make array) = .error (.buffer .alloc)
      ∧ ∃ b, run (make array) [.text (Double.field lib {} bits)] = .ok (b, [true])
        ∧ b.read = .ok (Double.field lib {} bits) := by
  constructor
  · have h := C93_double lib hlib array hlen [] (by simp) (make array) [] rfl [] rfl bits hb hf hsize
    rw [if_neg (by simp only [List.length_nil]; omega)] at h
    exact h
  · obtain ⟨b, e, _, hr⟩ := C93_exact_fit array hlen [Double.field lib {} bits] (by simp [hn])
    exact ⟨b, e, by simpa using hr⟩

/-- Values that are no finite numbers need no such element: `nan` and `inf` with their sign fit exactly. -/
theorem C93_words (lib : Double.Libc) (array : Arr) (hlen : array.length < 2 ^ 63) (cs : List Call)
    (hs : ∀ c ∈ cs, c.Sane) (b : Buf) (flags : List Bool) (hrun : run (make array) cs = .ok (b, flags)) (T : Str)
    (hT : b.read = .ok T) (bits : Nat) (hb : bits < 2 ^ 64) (word : Str)
    (hn : (Double.NotANumber bits ∧ word = ch! "nan") ∨ (Double.Infinite bits ∧ word = ch! "inf")) :
    if T.length + (Double.signOf {} bits ++ word).length ≤ array.length then
      ∃ b', streamDouble lib bits b = .ok b' ∧ b'.read = .ok (T ++ (Double.signOf {} bits ++ word)) ∧ b'.heap = none
    else streamDouble lib bits b = .error (.buffer .alloc) := by
  obtain ⟨b0, e0, h⟩ := run_spec cs hs (Is.make array hlen)
  rw [hrun] at e0
  cases e0
  have hl : (Page.calls ⟨array, []⟩ cs).1.array.length = array.length := calls_length cs _
  generalize (Page.calls ⟨array, []⟩ cs).1 = p at *
  rw [h.read] at hT
  cases hT
  have hcap := h.cap
  have hsz := h.size
  have hstream : streamDouble lib bits b
      = Double.lift (Double.writeWord false {} (Double.signChar {} bits) (' ' :: word) b) := by
    unfold streamDouble
    rw [Double.writeDouble_known lib false (.inl rfl)]
    have hc : ¬ Double.capital {} := by simp [Double.capital]
    simp only [Double.wordOf, if_neg hc]
    rcases hn with ⟨hn, rfl⟩ | ⟨hn, rfl⟩
    · rw [if_pos ((Double.isNan_iff hb).2 hn)]
    · rw [if_neg (by rw [Double.isNan_iff hb]; unfold Double.NotANumber; unfold Double.Infinite at hn; omega),
        if_pos ((Double.isInf_iff hb).2 hn)]
  have hw3 : word.length = 3 := by rcases hn with ⟨_, rfl⟩ | ⟨_, rfl⟩ <;> rfl
  rw [hstream, ← Double.signChar_eq {} hb]
  -- the text that is put there before the sign is
  have hput : ∀ s : Str, s.length < 2 ^ 63 →
      (p.text.length + s.length ≤ p.array.length →
        ∃ b', Double.writeStr false {} s b = .ok (b', b.size) ∧ Is b' (p.add s).1)
      ∧ (¬ p.text.length + s.length ≤ p.array.length → Double.writeStr false {} s b = .error .alloc) := by
    intro s _
    constructor
    · intro hfit
      obtain ⟨b', e, hsz', hb'⟩ := h.copy s hfit (p.text.length + s.length)
      refine ⟨b', ?_, ?_⟩
      · unfold Double.writeStr
        simp only [Nat.not_lt_zero, gt_iff_lt, if_false, bind, Except.bind]
        rw [resize_yes (by omega)]
        simp only [hsz, e]
      · have : { b' with size := p.text.length + s.length } = b' := by rw [← hsz']
        rw [this] at hb'; exact hb'
    · intro hno
      unfold Double.writeStr
      simp only [Nat.not_lt_zero, gt_iff_lt, if_false, bind, Except.bind, Buf.resize]
      rw [if_pos (by omega), grow_eq]
      rfl
  generalize Double.signChar {} bits = sign
  unfold Double.writeWord
  cases sign with
  | none =>
    simp only [Option.toList_none, List.nil_append, List.drop_succ_cons, List.drop_zero]
    obtain ⟨h1, h2⟩ := hput word (by omega)
    split
    · rename_i hfit
      rw [← hl] at hfit
      obtain ⟨b', e, hb'⟩ := h1 hfit
      refine ⟨b', by simp only [e, bind, Except.bind]; rfl, ?_, hb'.heap⟩
      rw [hb'.read]
      unfold Page.add; rw [if_pos hfit]
    · rename_i hno
      rw [h2 (by omega)]
      rfl
  | some c =>
    have hL : ((some c).toList ++ word).length = word.length + 1 := rfl
    obtain ⟨h1, h2⟩ := hput (' ' :: word) (by simp only [List.length_cons]; omega)
    by_cases hfit : p.text.length + ((some c).toList ++ word).length ≤ array.length
    · rw [if_pos hfit]
      rw [hL] at hfit
      simp only [Option.toList_some, List.singleton_append]
      obtain ⟨b', e, hb'⟩ := h1 (by simp only [List.length_cons]; omega)
      have hadd : p.add (' ' :: word) = (⟨p.array.take p.text.length ++ (' ' :: word).map some
          ++ p.array.drop (p.text.length + (' ' :: word).length), p.text ++ ' ' :: word⟩, true) := by
        unfold Page.add; rw [if_pos (by simp only [List.length_cons]; omega)]
      rw [hadd] at hb'
      have hinl : b'.inl = p.text.map some ++ some ' ' :: (word.map some
          ++ p.array.drop (p.text.length + (word.length + 1))) := by
        have := hb'.arr
        simp only at this
        rw [this, h.text]; simp
      have hset := set_inl (b := b') hb'.heap p.text.length c (by rw [hinl]; simp)
      rw [e]
      simp only [bind, Except.bind, hsz, hset]
      refine ⟨_, rfl, ?_, hb'.heap⟩
      have hI : Is { b' with inl := b'.inl.take p.text.length ++ [some c] ++ b'.inl.drop (p.text.length + 1) }
          ⟨b'.inl.take p.text.length ++ [some c] ++ b'.inl.drop (p.text.length + 1), p.text ++ c :: word⟩ := by
        have hll : (b'.inl.take p.text.length ++ [some c] ++ b'.inl.drop (p.text.length + 1)).length
            = b'.inl.length := by
          rw [hinl]
          simp only [List.length_append, List.length_take, List.length_map, List.length_cons, List.length_nil,
            List.length_drop]
          omega
        have h3 := hb'.arr
        have h4 := hb'.cap
        have h5 := hb'.size
        have h6 := hb'.le
        have h7 := hb'.small
        simp only at h3 h4 h5 h6 h7
        rw [← h3] at h4 h6 h7
        refine ⟨hb'.heap, rfl, ?_, ?_, ?_, ?_, ?_⟩
        · simp only [hll]; exact h4
        · simp only [h5, List.length_append, List.length_cons]
        · simp only [hll]; simpa only [List.length_append, List.length_cons] using h6
        · simp only
          have hX : b'.inl.take p.text.length ++ [some c] ++ b'.inl.drop (p.text.length + 1)
              = (p.text ++ c :: word).map some ++ p.array.drop (p.text.length + (word.length + 1)) := by
            have hd : b'.inl.drop (p.text.length + 1)
                = word.map some ++ p.array.drop (p.text.length + (word.length + 1)) := by
              rw [hinl, ← List.drop_drop, List.drop_left' (by simp)]; rfl
            rw [hd, hinl, List.take_left' (by simp)]
            simp
          rw [hX]
          exact List.take_left' (by simp)
        · simp only [hll]; exact h7
      exact hI.read
    · rw [if_neg hfit, h2 (by simp only [List.length_cons]; omega)]
      rfl

/-! Cases that meet the hypotheses. -/

/-- An array of five unwritten elements. -/
example : run (make (List.replicate 5 none)) [.text (ch! "abc"), .field (ch! "123"), .char 'd', .char 'e', .char 'f']
    = .ok ({ inl := (ch! "abcde").map some, heap := none, size := 5, capacity := 5 }, [true, false, true, true, false]) := by
  rfl

/-- The text of a cleared writer is empty, but the array is as it was. -/
example : run (make (List.replicate 3 none)) [.text (ch! "abc"), .clear, .char 'x']
    = .ok ({ inl := (ch! "xbc").map some, heap := none, size := 1, capacity := 3 }, [true, true, true]) := by
  rfl

/-- `-1.0` in an array of two and one of three characters, with a C library that writes every number as `1`. -/
example : streamDouble (fun _ _ _ _ => ch! "1") 0xbff0000000000000 (make [some 'a', some 'b'])
      = .error (.buffer .alloc)
    ∧ streamDouble (fun _ _ _ _ => ch! "1") 0xbff0000000000000 (make [some 'a', some 'b', some 'c'])
      = .ok { inl := [some '-', some '1', some '\x00'], heap := none, size := 2, capacity := 3 } := by
  constructor <;> rfl

example : cStr (make []) = .error .alloc ∧ (cStr (make [none])).map (·.inl) = .ok [some '\x00'] := by
  constructor <;> rfl

end Blackhole.ArrayWriter
