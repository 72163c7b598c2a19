import Verif.File.Spec

/-! # Lemmas about the file sink -/

namespace Blackhole.File

theorem mapLast_snoc {α : Type} (f : α → α) (l : List α) (x : α) : mapLast f (l ++ [x]) = l ++ [f x] := by
  induction l with
  | nil => rfl
  | cons a l ih => cases l with
    | nil => rfl
    | cons b l => simp only [List.cons_append, mapLast] at *; rw [ih]

theorem chunks_append (a b : List SOp) : chunks (a ++ b) = chunks a ++ chunks b := by
  induction a with
  | nil => rfl
  | cons x a ih => cases x <;> simp [chunks, ih]

theorem chunks_flushes (b : Bool) : chunks (if b then [SOp.flush] else []) = [] := by cases b <;> rfl

theorem annotate_snoc (due : List Str → Prop) [DecidablePred due] (seen ms : List Str) (m : Str) :
    annotate due seen (ms ++ [m]) =
      annotate due seen ms ++ [.write m] ++ (if due (seen ++ ms ++ [m]) then [.flush] else []) := by
  induction ms generalizing seen with
  | nil => simp [annotate]
  | cons a ms ih =>
    rw [List.cons_append, annotate, ih (seen ++ [a]), annotate]
    simp only [List.append_assoc, List.cons_append, List.nil_append]

theorem chunks_annotate (due : List Str → Prop) [DecidablePred due] (seen ms : List Str) :
    chunks (annotate due seen ms) = ms := by
  induction ms generalizing seen with
  | nil => rfl
  | cons a ms ih =>
    simp only [annotate, List.cons_append, chunks, chunks_append, ih]
    split <;> rfl

/-- The threshold in force. -/
def eff (n : Nat) : Nat := if n > 0 then n else u64 - 1

theorem eff_pos (n : Nat) : 0 < eff n := by unfold eff u64; split <;> omega
theorem eff_lt (n : Nat) (h : n < 2 ^ 64) : eff n < u64 := by unfold eff u64; split <;> omega

/-- The counters of a flusher agree with what was written. -/
def FlOk : FlusherFactory → Flusher → List SOp → Prop
  | .repeat n, fl, ops =>
    n < 2 ^ 64 → fl = .repeat ((chunks ops).length % eff n) (eff n) ∧ ops = annotate (DueEvents (eff n)) [] (chunks ops)
  | .bytecount n, fl, ops =>
    NoWrap (eff n) (chunks ops) →
      fl = .bytecount ((chunks ops).flatten.length % eff n) (eff n)
        ∧ ops = annotate (DueBytes (eff n)) [] (chunks ops)

/-- The flushes of a stream are where they should be. -/
def StreamOk : FlusherFactory → List SOp → Prop
  | .repeat n, ops => n < 2 ^ 64 → ops = annotate (DueEvents (eff n)) [] (chunks ops)
  | .bytecount n, ops =>
    NoWrap (eff n) (chunks ops) → ops = annotate (DueBytes (eff n)) [] (chunks ops)

theorem StreamOk.of_flOk {ff : FlusherFactory} {fl : Flusher} {ops : List SOp} (h : FlOk ff fl ops) :
    StreamOk ff ops := by
  cases ff <;> exact fun h' => (h h').2

theorem StreamOk.nil (ff : FlusherFactory) : StreamOk ff [] := by
  cases ff <;> exact fun _ => rfl

theorem FlOk.nil (ff : FlusherFactory) : FlOk ff ff.create [] := by
  cases ff with
  | «repeat» n => intro _; exact ⟨by simp [FlusherFactory.create, chunks, eff], rfl⟩
  | bytecount n => intro _; exact ⟨by simp [FlusherFactory.create, chunks, eff], rfl⟩

theorem FlOk.update {ff : FlusherFactory} {fl : Flusher} {ops : List SOp} (h : FlOk ff fl ops) (m : Str) :
    FlOk ff (fl.update (m.length + 1)).1
      (ops ++ [.write (m ++ ['\n'])] ++ (if (fl.update (m.length + 1)).2 then [.flush] else [])) := by
  have hch : ∀ b : Bool, chunks (ops ++ [.write (m ++ ['\n'])] ++ (if b then [.flush] else []))
      = chunks ops ++ [m ++ ['\n']] := by
    intro b
    simp [chunks_append, chunks_flushes, chunks]
  cases ff with
  | «repeat» n =>
    intro hn
    obtain ⟨h1, h2⟩ := h hn
    have hpos := eff_pos n
    have hlt := eff_lt n hn
    rw [hch]
    have hmod : ((chunks ops).length % eff n + 1) % u64 % eff n = ((chunks ops).length + 1) % eff n := by
      have : (chunks ops).length % eff n < eff n := Nat.mod_lt _ hpos
      rw [Nat.mod_eq_of_lt (by omega : (chunks ops).length % eff n + 1 < u64), Nat.mod_add_mod]
    refine ⟨?_, ?_⟩
    · rw [h1]
      simp only [Flusher.update, ne_eq, Nat.add_eq_zero_iff, Nat.one_ne_zero, and_false, not_false_eq_true, if_true,
        hmod, List.length_append, List.length_singleton]
    · rw [annotate_snoc, ← h2, h1]
      simp only [Flusher.update, ne_eq, Nat.add_eq_zero_iff, Nat.one_ne_zero, and_false, not_false_eq_true, if_true,
        hmod, List.nil_append, DueEvents, List.length_append, List.length_singleton, beq_iff_eq]
  | bytecount n =>
    intro hs
    rw [hch] at hs
    have hpos := eff_pos n
    have hm : m.length + 1 + eff n ≤ u64 ∨ (chunks ops).flatten.length + (m.length + 1) < u64 := by
      rcases hs with hs | hs
      · left
        have := hs (m ++ ['\n']) (by simp)
        simpa [u64] using this
      · right
        simpa [u64] using hs
    obtain ⟨h1, h2⟩ := h (by
      rcases hs with hs | hs
      · exact Or.inl (fun x hx => hs x (by simp [hx]))
      · right
        simp only [List.flatten_append, List.length_append] at hs
        omega)
    rw [hch]
    have hlt : (chunks ops).flatten.length % eff n < eff n := Nat.mod_lt _ hpos
    have hle : (chunks ops).flatten.length % eff n ≤ (chunks ops).flatten.length := Nat.mod_le _ _
    have hsum : ((chunks ops).flatten.length % eff n + (m.length + 1)) % u64
        = (chunks ops).flatten.length % eff n + (m.length + 1) := Nat.mod_eq_of_lt (by omega)
    have hlen : (chunks ops ++ [m ++ ['\n']]).flatten.length = (chunks ops).flatten.length + (m.length + 1) := by
      simp [List.flatten_append]
    refine ⟨?_, ?_⟩
    · rw [h1]
      simp only [Flusher.update, ne_eq, Nat.add_eq_zero_iff, Nat.one_ne_zero, and_false, not_false_eq_true, if_true,
        hsum, Nat.mod_add_mod, hlen]
    · rw [annotate_snoc, ← h2, h1]
      simp only [Flusher.update, ne_eq, Nat.add_eq_zero_iff, Nat.one_ne_zero, and_false, not_false_eq_true, if_true,
        hsum, List.nil_append, DueBytes, hlen, List.dropLast_concat, decide_eq_true_eq]
      have hiff : ((chunks ops).flatten.length % eff n + (m.length + 1) ≥ eff n) ↔
          ((chunks ops).flatten.length / eff n < ((chunks ops).flatten.length + (m.length + 1)) / eff n) := by
        generalize (chunks ops).flatten.length = t at *
        have e := Nat.div_add_mod t (eff n)
        have : t + (m.length + 1) = t % eff n + (m.length + 1) + (t / eff n) * eff n := by
          rw [Nat.mul_comm]; omega
        rw [this, Nat.add_mul_div_right _ _ hpos]
        constructor
        · intro h
          have := Nat.div_pos h hpos
          omega
        · intro h
          rcases Nat.lt_or_ge (t % eff n + (m.length + 1)) (eff n) with h' | h'
          · rw [Nat.div_eq_of_lt h'] at h; omega
          · exact h'
      simp only [hiff]

/-- The rotation object remembers the inode that was noted for the stream. -/
def RotOk : RotateFactory → Rotate → Option Nat → Prop
  | .null, .null, _ => True
  | .stat, .stat i, n => n = some i
  | _, _, _ => False

/-- The state of the sink agrees with its streams. -/
structure Inv (s : Sink) : Prop where
  streams : ∀ st ∈ s.streams, StreamOk s.flusherFactory st.ops
  none : s.backend = none → ∀ st ∈ s.streams, st.isOpen = false
  some : ∀ b, s.backend = some b → ∃ pre st, s.streams = pre ++ [st] ∧ (∀ x ∈ pre, x.isOpen = false)
    ∧ st.isOpen = true ∧ FlOk s.flusherFactory b.flusher st.ops ∧ RotOk s.rotateFactory b.rotate st.noted

theorem Inv.init (r : RotateFactory) (f : FlusherFactory) : Inv (Sink.init r f) :=
  ⟨by simp [Sink.init], by simp [Sink.init], by simp [Sink.init]⟩

theorem close_streams {s : Sink} (h : Inv s) :
    ∃ ss, s.close = { s with backend := Option.none, streams := ss } ∧ (∀ st ∈ ss, st.isOpen = false)
      ∧ (∀ st ∈ ss, StreamOk s.flusherFactory st.ops) ∧ contents ss = contents s.streams
      ∧ ss.length = s.streams.length := by
  cases hb : s.backend with
  | none =>
    refine ⟨_, rfl, ?_⟩
    have h0 := h.none hb
    rcases List.eq_nil_or_concat s.streams with e | ⟨pre, st, e⟩
    · simp [e, mapLast]
    · have hs := h.streams
      rw [List.concat_eq_append] at e
      rw [e, mapLast_snoc]
      rw [e] at h0 hs
      refine ⟨?_, ?_, by simp [contents], by simp⟩
      · intro x hx
        rcases List.mem_append.1 hx with hx | hx
        · exact h0 x (List.mem_append_left _ hx)
        · rw [List.mem_singleton.1 hx]
      · intro x hx
        rcases List.mem_append.1 hx with hx | hx
        · exact hs x (List.mem_append_left _ hx)
        · rw [List.mem_singleton.1 hx]; exact hs st (by simp)
  | some b =>
    obtain ⟨pre, st, e, hp, ho, hf, hr⟩ := h.some b hb
    have hs := h.streams
    refine ⟨_, rfl, ?_⟩
    rw [e, mapLast_snoc]
    rw [e] at hs
    refine ⟨?_, ?_, by simp [contents], by simp⟩
    · intro x hx
      rcases List.mem_append.1 hx with hx | hx
      · exact hp x hx
      · rw [List.mem_singleton.1 hx]
    · intro x hx
      rcases List.mem_append.1 hx with hx | hx
      · exact hs x (List.mem_append_left _ hx)
      · rw [List.mem_singleton.1 hx]; exact hs st (by simp)

theorem createBackend_inv {s : Sink} (o : Oracle) (hn : s.backend = none) (h1 : ∀ st ∈ s.streams, st.isOpen = false)
    (h2 : ∀ st ∈ s.streams, StreamOk s.flusherFactory st.ops) :
    Inv (s.createBackend o).1 ∧ contents (s.createBackend o).1.streams = contents s.streams
      ∧ ((s.createBackend o).2 = .ok ↔ (s.createBackend o).1.backend ≠ none) := by
  unfold Sink.createBackend
  have hall : ∀ x : Stream, x.ops = [] → ∀ st ∈ s.streams ++ [x], StreamOk s.flusherFactory st.ops := by
    intro x hx st hst
    rcases List.mem_append.1 hst with hst | hst
    · exact h2 st hst
    · rw [List.mem_singleton.1 hst, hx]; exact StreamOk.nil _
  cases ho : o.opened with
  | none => exact ⟨⟨h2, fun _ => h1, by simp [hn]⟩, rfl, by simp [hn]⟩
  | some inode =>
    cases hr : s.rotateFactory with
    | null =>
      refine ⟨⟨hall _ rfl, by simp, ?_⟩, by simp [contents, chunks], by simp⟩
      intro b hb
      simp only [Option.some.injEq] at hb
      subst hb
      exact ⟨_, _, rfl, h1, rfl, FlOk.nil _, by simp [RotOk]⟩
    | stat =>
      cases hrec : o.recorded with
      | none =>
        refine ⟨⟨hall _ rfl, ?_, by simp [hn]⟩, by simp [contents, chunks], by simp [hn]⟩
        intro _ st hst
        rcases List.mem_append.1 hst with hst | hst
        · exact h1 st hst
        · rw [List.mem_singleton.1 hst]
      | some i =>
        refine ⟨⟨hall _ rfl, by simp, ?_⟩, by simp [contents, chunks], by simp⟩
        intro b hb
        simp only [Option.some.injEq] at hb
        subst hb
        exact ⟨_, _, rfl, h1, rfl, FlOk.nil _, by simp [RotOk]⟩

theorem getBackend_inv {s : Sink} (h : Inv s) (o : Oracle) :
    Inv (s.getBackend o).1 ∧ contents (s.getBackend o).1.streams = contents s.streams
      ∧ ((s.getBackend o).2 = .ok ↔ (s.getBackend o).1.backend ≠ none) := by
  unfold Sink.getBackend
  cases hb : s.backend with
  | none => exact createBackend_inv o hb (h.none hb) h.streams
  | some b =>
    simp only
    split
    · obtain ⟨ss, e, h1, h2, h3, _⟩ := close_streams h
      rw [e]
      have := createBackend_inv (s := { s with backend := Option.none, streams := ss }) o rfl h1 h2
      exact ⟨this.1, this.2.1.trans h3, this.2.2⟩
    · exact ⟨h, rfl, by simp [hb]⟩

theorem write_inv {s : Sink} (h : Inv s) (hb : s.backend ≠ none) (m : Str) :
    Inv (s.write m) ∧ contents (s.write m).streams = contents s.streams ++ (m ++ ['\n'])
      ∧ (s.write m).backend ≠ none := by
  unfold Sink.write
  cases hb' : s.backend with
  | none => exact absurd hb' hb
  | some b =>
    obtain ⟨pre, st, e, hp, ho, hf, hr⟩ := h.some b hb'
    have hs := h.streams
    rw [e] at hs
    have hf' := hf.update m
    simp only
    rw [e, mapLast_snoc]
    refine ⟨⟨?_, by simp, ?_⟩, ?_, by simp⟩
    · intro x hx
      rcases List.mem_append.1 hx with hx | hx
      · exact hs x (List.mem_append_left _ hx)
      · rw [List.mem_singleton.1 hx]; exact StreamOk.of_flOk hf'
    · intro b' hb''
      simp only [Option.some.injEq] at hb''
      subst hb''
      exact ⟨_, _, rfl, hp, ho, hf', hr⟩
    · simp [contents, chunks_append, chunks, chunks_flushes]

theorem emit_cases (s : Sink) (o : Oracle) (m : Str) :
    ((s.getBackend o).2 = .ok ∧ s.emit o m = ((s.getBackend o).1.write m, .ok))
    ∨ ((s.getBackend o).2 ≠ .ok ∧ s.emit o m = s.getBackend o) := by
  unfold Sink.emit
  rcases s.getBackend o with ⟨s', r⟩
  cases r <;> simp

theorem emit_inv {s : Sink} (h : Inv s) (o : Oracle) (m : Str) :
    Inv (s.emit o m).1 ∧ contents (s.emit o m).1.streams
      = contents s.streams ++ (if (s.emit o m).2 = .ok then m ++ ['\n'] else []) := by
  obtain ⟨hg, hc, hok⟩ := getBackend_inv h o
  rcases emit_cases s o m with ⟨h1, h2⟩ | ⟨h1, h2⟩
  · obtain ⟨hw, hwc, _⟩ := write_inv hg (hok.1 h1) m
    rw [h2]
    exact ⟨hw, by simp [hwc, hc]⟩
  · rw [h2]
    exact ⟨hg, by simp [hc, h1]⟩

theorem run_cons (s : Sink) (o : Oracle) (m : Str) (h : List (Oracle × Str)) :
    s.run ((o, m) :: h) = (((s.emit o m).1.run h).1, (s.emit o m).2 :: ((s.emit o m).1.run h).2) := rfl

theorem run_inv {s : Sink} (hi : Inv s) (h : List (Oracle × Str)) :
    Inv (s.run h).1 ∧ contents (s.run h).1.streams = contents s.streams ++ deliveredLines h (s.run h).2 := by
  induction h generalizing s with
  | nil => exact ⟨hi, by simp [Sink.run, deliveredLines]⟩
  | cons x h ih =>
    obtain ⟨o, m⟩ := x
    obtain ⟨he, hc⟩ := emit_inv hi o m
    obtain ⟨h1, h2⟩ := ih he
    rw [run_cons]
    refine ⟨h1, ?_⟩
    simp only [h2, hc]
    cases hr : (s.emit o m).2 <;> simp [deliveredLines]

theorem run_append (s : Sink) (a b : List (Oracle × Str)) :
    s.run (a ++ b) = (((s.run a).1.run b).1, (s.run a).2 ++ ((s.run a).1.run b).2) := by
  induction a generalizing s with
  | nil => rfl
  | cons x a ih => obtain ⟨o, m⟩ := x; simp [run_cons, ih]

theorem factories_const (s : Sink) (o : Oracle) (m : Str) :
    (s.emit o m).1.flusherFactory = s.flusherFactory ∧ (s.emit o m).1.rotateFactory = s.rotateFactory := by
  have hc : ∀ s : Sink, (s.createBackend o).1.flusherFactory = s.flusherFactory
      ∧ (s.createBackend o).1.rotateFactory = s.rotateFactory := by
    intro s
    unfold Sink.createBackend
    split
    · exact ⟨rfl, rfl⟩
    · simp only
      split
      · exact ⟨rfl, rfl⟩
      · split <;> exact ⟨rfl, rfl⟩
  have hg : (s.getBackend o).1.flusherFactory = s.flusherFactory
      ∧ (s.getBackend o).1.rotateFactory = s.rotateFactory := by
    unfold Sink.getBackend
    split
    · exact hc s
    · split
      · exact hc s.close
      · exact ⟨rfl, rfl⟩
  rcases emit_cases s o m with ⟨_, h2⟩ | ⟨_, h2⟩
  · rw [h2]
    unfold Sink.write
    split <;> exact hg
  · rw [h2]; exact hg

theorem run_factories (s : Sink) (h : List (Oracle × Str)) :
    (s.run h).1.flusherFactory = s.flusherFactory ∧ (s.run h).1.rotateFactory = s.rotateFactory := by
  induction h generalizing s with
  | nil => exact ⟨rfl, rfl⟩
  | cons x h ih =>
    obtain ⟨o, m⟩ := x
    rw [run_cons]
    have := factories_const s o m
    exact ⟨(ih _).1.trans this.1, (ih _).2.trans this.2⟩

/-! ## Unflushed data -/

theorem unflushed_snoc (ops : List SOp) (m : Str) (b : Prop) [Decidable b] :
    unflushed (ops ++ [.write m] ++ (if b then [.flush] else [])) = if b then [] else unflushed ops ++ [m] := by
  unfold unflushed
  split
  · simp [chunks]
  · simp [chunks_append, chunks]

theorem unflushed_events (n : Nat) (hn : 0 < n) (ms : List Str) :
    (unflushed (annotate (DueEvents n) [] ms)).length = ms.length % n := by
  induction ms using snoc_induction with
  | nil => simp [annotate, unflushed, chunks]
  | snoc ms m ih =>
    rw [annotate_snoc, unflushed_snoc]
    have hm : (([] : List Str) ++ ms ++ [m]).length = ms.length + 1 := by simp
    have hlt := Nat.mod_lt ms.length hn
    split
    · rename_i h
      unfold DueEvents at h
      rw [hm] at h
      simp [h]
    · simp only [List.length_append, List.length_singleton, ih]
      rename_i hne
      unfold DueEvents at hne
      rw [hm] at hne
      rw [Nat.add_mod] at hne ⊢
      rcases Nat.lt_or_ge 1 n with h1 | h1
      · rw [Nat.mod_eq_of_lt h1] at hne ⊢
        rcases Nat.lt_or_ge (ms.length % n + 1) n with h | h
        · rw [Nat.mod_eq_of_lt h]
        · have : ms.length % n + 1 = n := by omega
          rw [this, Nat.mod_self] at hne; omega
      · have : n = 1 := by omega
        subst this; simp [Nat.mod_one] at hne

theorem unflushed_bytes (n : Nat) (ms : List Str) :
    (unflushed (annotate (DueBytes n) [] ms)).flatten.length ≤ ms.flatten.length % n := by
  induction ms using snoc_induction with
  | nil => simp [annotate, unflushed, chunks]
  | snoc ms m ih =>
    rw [annotate_snoc, unflushed_snoc]
    split
    · simp
    · rename_i hd
      unfold DueBytes at hd
      simp only [List.nil_append, List.dropLast_concat, List.flatten_append, List.length_append,
        List.flatten_cons, List.flatten_nil, List.length_nil, Nat.add_zero] at hd ⊢
      have h1 := Nat.div_add_mod ms.flatten.length n
      have h2 := Nat.div_add_mod (ms.flatten.length + m.length) n
      have h3 : ms.flatten.length / n ≤ (ms.flatten.length + m.length) / n :=
        Nat.div_le_div_right (Nat.le_add_right _ _)
      have h4 : ms.flatten.length / n = (ms.flatten.length + m.length) / n := by omega
      rw [← h4] at h2
      omega

/-! ## Data units -/

theorem isDigit_iff (c : Char) : isDigit c = true ↔ Digit c := by
  unfold isDigit Digit
  simp only [decide_eq_true_eq, List.mem_cons, List.not_mem_nil, or_false]
  constructor
  · intro ⟨h1, h2⟩
    have h1' : 48 ≤ c.toNat := h1
    have h2' : c.toNat ≤ 57 := h2
    have : ∀ d : Char, c.toNat = d.toNat → c = d := fun d h => Char.ext (UInt32.toNat_inj.1 h)
    have hc : c.toNat = 48 ∨ c.toNat = 49 ∨ c.toNat = 50 ∨ c.toNat = 51 ∨ c.toNat = 52 ∨ c.toNat = 53
      ∨ c.toNat = 54 ∨ c.toNat = 55 ∨ c.toNat = 56 ∨ c.toNat = 57 := by omega
    rcases hc with h | h | h | h | h | h | h | h | h | h
    · exact Or.inl (this '0' h)
    · exact Or.inr (Or.inl (this '1' h))
    · exact Or.inr (Or.inr (Or.inl (this '2' h)))
    · exact Or.inr (Or.inr (Or.inr (Or.inl (this '3' h))))
    · exact Or.inr (Or.inr (Or.inr (Or.inr (Or.inl (this '4' h)))))
    · exact Or.inr (Or.inr (Or.inr (Or.inr (Or.inr (Or.inl (this '5' h))))))
    · exact Or.inr (Or.inr (Or.inr (Or.inr (Or.inr (Or.inr (Or.inl (this '6' h)))))))
    · exact Or.inr (Or.inr (Or.inr (Or.inr (Or.inr (Or.inr (Or.inr (Or.inl (this '7' h))))))))
    · exact Or.inr (Or.inr (Or.inr (Or.inr (Or.inr (Or.inr (Or.inr (Or.inr (Or.inl (this '8' h)))))))))
    · exact Or.inr (Or.inr (Or.inr (Or.inr (Or.inr (Or.inr (Or.inr (Or.inr (Or.inr (this '9' h)))))))))
  · rintro (h | h | h | h | h | h | h | h | h | h) <;> subst h <;> decide

theorem foldl_decimal (s : Str) (acc : Nat) :
    s.foldl (fun n c => n * 10 + (c.toNat - '0'.toNat)) acc = acc * 10 ^ s.length + decimal s := by
  induction s generalizing acc with
  | nil => simp [decimal]
  | cons c s ih =>
    have h48 : '0'.toNat = 48 := rfl
    rw [List.foldl_cons, ih, decimal, List.length_cons, Nat.pow_succ, h48, Nat.add_mul, Nat.add_assoc,
      Nat.mul_assoc acc, Nat.mul_comm 10]

theorem lexicalCast_eq (s : Str) :
    lexicalCast s = if s = [] then .error .badLexicalCast
      else if decimal s < 2 ^ 64 then .ok (decimal s) else .error .badLexicalCast := by
  unfold lexicalCast
  simp only [foldl_decimal, Nat.zero_mul, Nat.zero_add, u64]

theorem suffix_head {suf : Str} {m : Nat} (h : Suffix suf m) : ∀ c rest, suf = c :: rest → isDigit c = false := by
  intro c rest hc
  cases h <;> cases hc <;> decide

theorem takeDrop {ds suf : Str} (h1 : ∀ c ∈ ds, isDigit c = true) (h2 : ∀ c rest, suf = c :: rest → isDigit c = false) :
    (ds ++ suf).takeWhile isDigit = ds ∧ (ds ++ suf).dropWhile isDigit = suf := by
  induction ds with
  | nil =>
    cases suf with
    | nil => simp
    | cons c rest => simp [h2 c rest rfl]
  | cons d ds ih =>
    have hd := h1 d (by simp)
    have := ih (fun c hc => h1 c (by simp [hc]))
    simp [hd, this]

theorem lookup_iff {suf : Str} {m : Nat} (hne : suf ≠ []) : mapping.lookup suf = some m ↔ Suffix suf m := by
  constructor
  · intro h
    simp only [mapping, List.lookup] at h
    repeat' split at h
    all_goals first
      | (rename_i he; have := eq_of_beq he; injection h with h; subst h; subst this; constructor)
      | cases h
  · intro h
    cases h <;> first | exact absurd rfl hne | decide

end Blackhole.File
