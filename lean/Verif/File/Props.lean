import Verif.File.Lemmas

/-! # Properties of the file sink: C14-C18 -/

namespace Blackhole.File

/-! ## C14: every message becomes one line, in order -/

/-- For any policies, any history of emits and any behaviour of the file system, the bytes written to the streams, in
order of opening, are the lines of the emits that returned normally, in emit order. -/
theorem C14_lines (r : RotateFactory) (f : FlusherFactory) (h : List (Oracle × Str)) :
    contents ((Sink.init r f).run h).1.streams = deliveredLines h ((Sink.init r f).run h).2 := by
  rw [(run_inv (Inv.init r f) h).2]
  rfl

/-- An emit throws only if opening the file or asking for its inode failed. -/
theorem C14_throws_only_on_errors (r : RotateFactory) (f : FlusherFactory) (h : List (Oracle × Str)) (o : Oracle)
    (m : Str) :
    (((Sink.init r f).run h).1.emit o m).2 = .ok
      ∨ ((((Sink.init r f).run h).1.emit o m).2 = .openFailed ∧ o.opened = none)
      ∨ ((((Sink.init r f).run h).1.emit o m).2 = .statFailed ∧ o.recorded = none ∧ r = .stat) := by
  have hr := (run_factories (Sink.init r f) h).2
  generalize ((Sink.init r f).run h).1 = s at *
  have hc : ∀ s : Sink, s.rotateFactory = r →
      (s.createBackend o).2 = .ok ∨ ((s.createBackend o).2 = .openFailed ∧ o.opened = none)
        ∨ ((s.createBackend o).2 = .statFailed ∧ o.recorded = none ∧ r = .stat) := by
    intro s hs
    unfold Sink.createBackend
    cases o.opened <;> cases h2 : s.rotateFactory <;> cases o.recorded <;> simp_all
  have hg : (s.getBackend o).2 = .ok ∨ ((s.getBackend o).2 = .openFailed ∧ o.opened = none)
        ∨ ((s.getBackend o).2 = .statFailed ∧ o.recorded = none ∧ r = .stat) := by
    unfold Sink.getBackend
    split
    · exact hc s hr
    · split
      · exact hc s.close hr
      · exact Or.inl rfl
  rcases emit_cases s o m with ⟨_, h2⟩ | ⟨_, h2⟩
  · rw [h2]; exact Or.inl rfl
  · rw [h2]; exact hg

/-- If those calls succeed nothing is dropped: the streams hold exactly all messages, one line each. -/
theorem C14_nothing_dropped (r : RotateFactory) (f : FlusherFactory) (h : List (Oracle × Str))
    (hok : ∀ x ∈ h, x.1.opened ≠ none ∧ x.1.recorded ≠ none) :
    contents ((Sink.init r f).run h).1.streams = h.flatMap fun x => x.2 ++ ['\n'] := by
  induction h using snoc_induction with
  | nil => rfl
  | snoc h x ih =>
    obtain ⟨o, m⟩ := x
    have hx := hok (o, m) (by simp)
    have hi := (run_inv (Inv.init r f) h).1
    have he := (emit_inv hi o m).2
    have := C14_throws_only_on_errors r f h o m
    rw [run_append]
    simp only [Sink.run]
    rw [he, ih (fun y hy => hok y (by simp [hy]))]
    have hok' : (((Sink.init r f).run h).1.emit o m).2 = .ok := by
      rcases this with h | h | h
      · exact h
      · exact absurd h.2 hx.1
      · exact absurd h.2.1 hx.2
    simp [hok']

/-- Two messages, the file replaced in between: two streams, one line each. -/
example : ((Sink.init .stat (.repeat 1)).run
      [(⟨none, some 7, some 7⟩, ch! "a"), (⟨some 8, some 8, some 8⟩, ch! "bc")]).1.streams
    = [{ inode := 7, noted := some 7, ops := [.write (ch! "a\n"), .flush], isOpen := false },
       { inode := 8, noted := some 8, ops := [.write (ch! "bc\n"), .flush], isOpen := true }] := by decide

/-- A failed reopen loses exactly that message, and the next emit opens the file again. -/
example :
    let r := (Sink.init .stat (.repeat 0)).run
      [(⟨none, some 7, some 7⟩, ch! "a"), (⟨none, none, none⟩, ch! "b"), (⟨none, some 9, some 9⟩, ch! "c")];
    (contents r.1.streams = ch! "a\nc\n") ∧ r.2 = [.ok, .openFailed, .ok] := by decide

/-! ## C15: flush every N events -/

/-- With a positive threshold every stream ever opened was flushed after exactly the writes number N, 2N, ... -/
theorem C15_every_nth (r : RotateFactory) (n : Nat) (hpos : 0 < n) (hn : n < 2 ^ 64) (h : List (Oracle × Str)) :
    ∀ st ∈ ((Sink.init r (.repeat n)).run h).1.streams,
      st.ops = annotate (DueEvents n) [] (chunks st.ops) := by
  intro st hst
  have hi := (run_inv (Inv.init r (.repeat n)) h).1
  have hf := (run_factories (Sink.init r (.repeat n)) h).1
  have := hi.streams st hst
  rw [hf] at this
  have he : eff n = n := by simp [eff, hpos]
  rw [← he]
  exact this hn

/-- Hence fewer than N events are ever left unflushed. -/
theorem C15_unflushed (r : RotateFactory) (n : Nat) (hpos : 0 < n) (hn : n < 2 ^ 64) (h : List (Oracle × Str)) :
    ∀ st ∈ ((Sink.init r (.repeat n)).run h).1.streams, (unflushed st.ops).length < n := by
  intro st hst
  rw [C15_every_nth r n hpos hn h st hst, unflushed_events n hpos]
  exact Nat.mod_lt _ hpos

/-- With threshold zero a stream is not flushed explicitly unless it gets 2^64 - 1 writes. -/
theorem C15_zero (r : RotateFactory) (h : List (Oracle × Str)) :
    ∀ st ∈ ((Sink.init r (.repeat 0)).run h).1.streams,
      (chunks st.ops).length < 2 ^ 64 - 1 → .flush ∉ st.ops := by
  intro st hst hlen
  have hi := (run_inv (Inv.init r (.repeat 0)) h).1
  have hf := (run_factories (Sink.init r (.repeat 0)) h).1
  have hs := hi.streams st hst
  rw [hf] at hs
  have hs : st.ops = annotate (DueEvents (eff 0)) [] (chunks st.ops) := hs (by decide)
  have he : eff 0 = 2 ^ 64 - 1 := by simp [eff, u64]
  rw [he] at hs
  have key : ∀ ms : List Str, ms.length < 2 ^ 64 - 1 → SOp.flush ∉ annotate (DueEvents (2 ^ 64 - 1)) [] ms := by
    intro ms
    induction ms using snoc_induction with
    | nil => simp [annotate]
    | snoc ms m ih =>
      intro hl
      have hl' : ms.length + 1 < 2 ^ 64 - 1 := by simpa using hl
      rw [annotate_snoc]
      have hnd : ¬ DueEvents (2 ^ 64 - 1) ([] ++ ms ++ [m]) := by
        unfold DueEvents
        have : (([] : List Str) ++ ms ++ [m]).length = ms.length + 1 := by simp
        rw [this, Nat.mod_eq_of_lt hl']
        omega
      have := ih (by omega)
      rw [if_neg hnd]
      simp [this]
  rw [hs]
  exact key _ hlen

example : ((Sink.init .null (.repeat 2)).run
      [(⟨none, some 1, none⟩, []), (⟨none, none, none⟩, ch! "x"), (⟨none, none, none⟩, ch! "y")]).1.streams.map Stream.ops
    = [[.write (ch! "\n"), .write (ch! "x\n"), .flush, .write (ch! "y\n")]] := by decide

/-! ## C16: flush every N bytes -/

/-- With a positive byte threshold every stream was flushed after exactly those writes with which the total size
reached or passed a multiple of N (the remainder is carried over), as long as each line is at most
2^64 - N bytes, or all lines of the stream together are less than 2^64 bytes. -/
theorem C16_multiples (r : RotateFactory) (n : Nat) (hpos : 0 < n) (h : List (Oracle × Str)) :
    ∀ st ∈ ((Sink.init r (.bytecount n)).run h).1.streams, NoWrap n (chunks st.ops) →
      st.ops = annotate (DueBytes n) [] (chunks st.ops) := by
  intro st hst hsz
  have hi := (run_inv (Inv.init r (.bytecount n)) h).1
  have hf := (run_factories (Sink.init r (.bytecount n)) h).1
  have := hi.streams st hst
  rw [hf] at this
  have he : eff n = n := by simp [eff, hpos]
  rw [← he]
  rw [← he] at hsz
  exact this hsz

/-- Hence fewer than N bytes are ever left unflushed. -/
theorem C16_unflushed (r : RotateFactory) (n : Nat) (hpos : 0 < n) (h : List (Oracle × Str)) :
    ∀ st ∈ ((Sink.init r (.bytecount n)).run h).1.streams, NoWrap n (chunks st.ops) →
      (unflushed st.ops).flatten.length < n := by
  intro st hst hsz
  rw [C16_multiples r n hpos h st hst hsz]
  exact Nat.lt_of_le_of_lt (unflushed_bytes n _) (Nat.mod_lt _ hpos)

/-- With threshold zero a stream is not flushed explicitly while it holds fewer than 2^64 - 1 bytes. -/
theorem C16_zero (r : RotateFactory) (h : List (Oracle × Str)) :
    ∀ st ∈ ((Sink.init r (.bytecount 0)).run h).1.streams,
      (chunks st.ops).flatten.length < 2 ^ 64 - 1 → .flush ∉ st.ops := by
  intro st hst hlen
  have hi := (run_inv (Inv.init r (.bytecount 0)) h).1
  have hf := (run_factories (Sink.init r (.bytecount 0)) h).1
  have hs := hi.streams st hst
  rw [hf] at hs
  have he : eff 0 = 2 ^ 64 - 1 := by simp [eff, u64]
  have hs : st.ops = annotate (DueBytes (eff 0)) [] (chunks st.ops) := hs (Or.inr (by omega))
  rw [he] at hs
  have key : ∀ ms : List Str, ms.flatten.length < 2 ^ 64 - 1 → SOp.flush ∉ annotate (DueBytes (2 ^ 64 - 1)) [] ms := by
    intro ms
    induction ms using snoc_induction with
    | nil => simp [annotate]
    | snoc ms m ih =>
      intro hl
      have hl' : ms.flatten.length + m.length < 2 ^ 64 - 1 := by simpa using hl
      rw [annotate_snoc]
      have hnd : ¬ DueBytes (2 ^ 64 - 1) ([] ++ ms ++ [m]) := by
        unfold DueBytes
        have : (([] : List Str) ++ ms ++ [m]).flatten.length = ms.flatten.length + m.length := by simp
        rw [this, Nat.div_eq_of_lt hl']
        omega
      have := ih (by omega)
      rw [if_neg hnd]
      simp [this]
  rw [hs]
  exact key _ hlen

/-- Beyond that size the counter wraps: with threshold 10 and 9 bytes pending, a write of 2^64 - 1 bytes does not
flush. -/
theorem C16_wraps : (Flusher.bytecount 9 10).update (2 ^ 64 - 1) = (.bytecount 8 10, false) := by decide

example : ((Sink.init .null (.bytecount 4)).run
      [(⟨none, some 1, none⟩, ch! "abcde"), (⟨none, none, none⟩, ch! "f"), (⟨none, none, none⟩, ch! "")]).1.streams.map
      Stream.ops
    = [[.write (ch! "abcde\n"), .flush, .write (ch! "f\n"), .flush, .write (ch! "\n")]] := by decide

/-! ## C17: rotation by inode -/

/-- With the stat policy, in any reachable state with an open stream: if the path now has the inode noted when that
stream was opened, the message goes to that stream. -/
theorem C17_reuse (f : FlusherFactory) (h : List (Oracle × Str)) (o : Oracle) (m : Str) (pre : List Stream)
    (st : Stream) (hs : ((Sink.init .stat f).run h).1.streams = pre ++ [st]) (hopen : st.isOpen = true)
    (hsame : o.check = st.noted) :
    (((Sink.init .stat f).run h).1.emit o m).2 = .ok
      ∧ ∃ fl, (((Sink.init .stat f).run h).1.emit o m).1.streams
          = pre ++ [{ st with ops := st.ops ++ [.write (m ++ ['\n'])] ++ fl }] ∧ chunks fl = [] := by
  have hi := (run_inv (Inv.init .stat f) h).1
  have hr := (run_factories (Sink.init .stat f) h).2
  generalize ((Sink.init .stat f).run h).1 = s at *
  cases hb : s.backend with
  | none =>
    have := hi.none hb st (by simp [hs])
    rw [hopen] at this; cases this
  | some b =>
    obtain ⟨pre', st', e, hp, ho, hf, hro⟩ := hi.some b hb
    rw [hs] at e
    obtain ⟨rfl, e2⟩ := List.append_inj' e rfl
    obtain rfl : st = st' := by simpa using e2
    have hnr : b.rotate.shouldRotate o.check = false := by
      rw [hr] at hro
      cases hb2 : b.rotate with
      | null => rfl
      | stat i =>
        rw [hb2] at hro
        have hn : st.noted = some i := hro
        rw [hsame, hn]
        simp [Rotate.shouldRotate]
    have hg : s.getBackend o = (s, .ok) := by simp [Sink.getBackend, hb, hnr]
    unfold Sink.emit
    rw [hg]
    refine ⟨rfl, (if (b.flusher.update (m.length + 1)).2 then [.flush] else []), ?_, chunks_flushes _⟩
    simp only [Sink.write, hb, hs, mapLast_snoc]

/-- Otherwise, or with no open stream: the old streams get nothing more, and the message goes, alone, to one newly
opened stream if the emit returns normally, and nowhere if it throws. -/
theorem C17_reopen (f : FlusherFactory) (h : List (Oracle × Str)) (o : Oracle) (m : Str)
    (hdiff : ∀ st ∈ ((Sink.init .stat f).run h).1.streams, st.isOpen = true → o.check = none ∨ o.check ≠ st.noted) :
    ∃ old, old.map Stream.ops = ((Sink.init .stat f).run h).1.streams.map Stream.ops
      ∧ (∀ st ∈ old, st.isOpen = false)
      ∧ ((∃ i j fl, o.opened = some i ∧ o.recorded = some j
          ∧ (((Sink.init .stat f).run h).1.emit o m).2 = .ok ∧ chunks fl = []
          ∧ (((Sink.init .stat f).run h).1.emit o m).1.streams
              = old ++ [{ inode := i, noted := some j, ops := .write (m ++ ['\n']) :: fl, isOpen := true }])
        ∨ ((((Sink.init .stat f).run h).1.emit o m).2 ≠ .ok
          ∧ contents (((Sink.init .stat f).run h).1.emit o m).1.streams = contents old
          ∧ ∀ st ∈ (((Sink.init .stat f).run h).1.emit o m).1.streams, st.isOpen = false)) := by
  have hi := (run_inv (Inv.init .stat f) h).1
  have hr := (run_factories (Sink.init .stat f) h).2
  generalize ((Sink.init .stat f).run h).1 = s at *
  have hclosed : ∃ s0 : Sink, s.getBackend o = s0.createBackend o ∧ s0.backend = none ∧ s0.rotateFactory = .stat
      ∧ s0.streams.map Stream.ops = s.streams.map Stream.ops ∧ ∀ st ∈ s0.streams, st.isOpen = false := by
    cases hb : s.backend with
    | none => exact ⟨s, by simp [Sink.getBackend, hb], hb, hr, rfl, hi.none hb⟩
    | some b =>
      obtain ⟨pre, st, e, hp, ho, hf, hro⟩ := hi.some b hb
      rw [hr] at hro
      have hrot : b.rotate.shouldRotate o.check = true := by
        cases hb2 : b.rotate with
        | null => rw [hb2] at hro; cases hro
        | stat i =>
          rw [hb2] at hro
          have hn : st.noted = some i := hro
          rcases hdiff st (by simp [e]) ho with h | h
          · rw [h]; rfl
          · rw [hn] at h
            cases hc : o.check with
            | none => rfl
            | some j =>
              rw [hc] at h
              simp only [Rotate.shouldRotate, Bool.not_eq_true', beq_eq_false_iff_ne, ne_eq]
              exact fun h' => h (by rw [h'])
      refine ⟨s.close, by simp [Sink.getBackend, hb, hrot], rfl, hr, ?_, ?_⟩
      · simp only [Sink.close, e, mapLast_snoc]; simp
      · simp only [Sink.close, e, mapLast_snoc]
        intro x hx
        rcases List.mem_append.1 hx with hx | hx
        · exact hp x hx
        · rw [List.mem_singleton.1 hx]
  obtain ⟨s0, hg, hb0, hr0, hops, hcl⟩ := hclosed
  refine ⟨s0.streams, hops, hcl, ?_⟩
  unfold Sink.emit
  rw [hg]
  unfold Sink.createBackend
  cases hop : o.opened with
  | none => exact Or.inr ⟨by simp, rfl, hcl⟩
  | some i =>
    cases hrec : o.recorded with
    | none =>
      right
      simp only [hr0]
      refine ⟨by simp, by simp [contents, chunks], ?_⟩
      intro x hx
      rcases List.mem_append.1 hx with hx | hx
      · exact hcl x hx
      · rw [List.mem_singleton.1 hx]
    | some j =>
      left
      simp only [hr0]
      refine ⟨i, j, (if (s0.flusherFactory.create.update (m.length + 1)).2 then [.flush] else []), ?_, ?_, ?_,
        chunks_flushes _, ?_⟩
      all_goals simp [Sink.write, mapLast_snoc]

/-- Without rotation the first stream is used for ever. -/
theorem C17_null_never_reopens (f : FlusherFactory) (h : List (Oracle × Str)) :
    ((Sink.init .null f).run h).1.streams.length ≤ 1 := by
  have key : ∀ (h : List (Oracle × Str)) (s : Sink), s.rotateFactory = .null → Inv s →
      (s.streams = [] ∨ (s.streams.length = 1 ∧ s.backend ≠ none)) →
      ((s.run h).1.streams.length ≤ 1) := by
    intro h
    induction h with
    | nil => intro s _ _ h; rcases h with h | h
             · simp [Sink.run, h]
             · simp [Sink.run, h.1]
    | cons x h ih =>
      obtain ⟨o, m⟩ := x
      intro s hr hi hs
      rw [run_cons]
      refine ih _ ((factories_const s o m).2.trans hr) (emit_inv hi o m).1 ?_
      cases hb : s.backend with
      | none =>
        have hs : s.streams = [] := by
          rcases hs with h | h
          · exact h
          · exact absurd hb h.2
        cases ho : o.opened with
        | none =>
          left
          simp [Sink.emit, Sink.getBackend, hb, Sink.createBackend, ho, hs]
        | some i =>
          right
          simp [Sink.emit, Sink.getBackend, hb, Sink.createBackend, ho, hr, hs, Sink.write, mapLast]
      | some b =>
        obtain ⟨pre, st, e, hp, hop, hf, hro⟩ := hi.some b hb
        have hrot : b.rotate = .null := by
          rw [hr] at hro
          cases hb2 : b.rotate with
          | null => rfl
          | stat i => rw [hb2] at hro; cases hro
        have hlen : pre = [] := by
          rcases hs with h | h
          · rw [h] at e; simp at e
          · rw [e] at h; simpa using h.1
        subst hlen
        have hg : s.getBackend o = (s, .ok) := by simp [Sink.getBackend, hb, hrot, Rotate.shouldRotate]
        right
        unfold Sink.emit
        rw [hg]
        simp [Sink.write, hb, e, mapLast]
  exact key h _ rfl (Inv.init _ _) (Or.inl rfl)

/-- In a file system where other programs may rename, remove or replace the file between emits: after every emit the
path names the file to which the message was just written. -/
theorem C17_follows_path (f : FlusherFactory) (p : Option Nat) (ops : List WOp) (m : Str) (fresh : Nat) :
    let w := (World.run { path := p, sink := Sink.init .stat f } ops).step (.emit m fresh)
    ∃ pre st before fl, w.sink.streams = pre ++ [st] ∧ w.path = some st.inode
      ∧ st.ops = before ++ .write (m ++ ['\n']) :: fl ∧ chunks fl = [] := by
  -- invariant: the noted inode is the stream's own
  have key : ∀ ops : List WOp, ∃ h : List (Oracle × Str),
      (World.run { path := p, sink := Sink.init .stat f } ops).sink = ((Sink.init .stat f).run h).1
        ∧ ∀ x ∈ h, x.1.opened = x.1.recorded := by
    intro ops
    induction ops using snoc_induction with
    | nil => exact ⟨[], rfl, by simp⟩
    | snoc ops op ih =>
      obtain ⟨h, e, hh⟩ := ih
      cases op with
      | external q => exact ⟨h, by simpa [World.run, World.step] using e, hh⟩
      | emit m fresh =>
        refine ⟨h ++ [(⟨(World.run { path := p, sink := Sink.init .stat f } ops).path,
          some (openFor (World.run { path := p, sink := Sink.init .stat f } ops).path fresh),
          some (openFor (World.run { path := p, sink := Sink.init .stat f } ops).path fresh)⟩, m)], ?_, ?_⟩
        · rw [run_append, ← e]
          simp [World.run, World.step, Sink.run]
        · intro x hx
          rcases List.mem_append.1 hx with hx | hx
          · exact hh x hx
          · rw [List.mem_singleton.1 hx]
  have noted : ∀ h : List (Oracle × Str), (∀ x ∈ h, x.1.opened = x.1.recorded) →
      ∀ st ∈ ((Sink.init .stat f).run h).1.streams, st.noted = some st.inode ∨ (st.isOpen = false) := by
    intro h
    induction h using snoc_induction with
    | nil => intro _ st hst; simp [Sink.run, Sink.init] at hst
    | snoc h x ih =>
      obtain ⟨o, m⟩ := x
      intro hh st hst
      have ih := ih (fun y hy => hh y (by simp [hy]))
      have ho := hh (o, m) (by simp)
      rw [run_append] at hst
      simp only [Sink.run] at hst
      by_cases hd : ∀ st ∈ ((Sink.init .stat f).run h).1.streams, st.isOpen = true → o.check = none ∨ o.check ≠ st.noted
      · obtain ⟨old, _, hcl, hcase⟩ := C17_reopen f h o m hd
        rcases hcase with ⟨i, j, fl, h1, h2, _, _, h5⟩ | ⟨_, _, h3⟩
        · rw [h5] at hst
          rcases List.mem_append.1 hst with hst | hst
          · exact Or.inr (hcl st hst)
          · rw [List.mem_singleton.1 hst]
            left
            rw [h1, h2] at ho
            simpa using ho.symm
        · exact Or.inr (h3 st hst)
      · have ⟨st0, hm0, ho0, hc0⟩ : ∃ st0 ∈ ((Sink.init .stat f).run h).1.streams, st0.isOpen = true
            ∧ ¬ (o.check = none ∨ o.check ≠ st0.noted) := by
          apply Classical.byContradiction
          intro hcon
          apply hd
          intro st hst hop
          apply Classical.byContradiction
          intro hc
          exact hcon ⟨st, hst, hop, hc⟩
        have hi := (run_inv (Inv.init .stat f) h).1
        cases hb : ((Sink.init .stat f).run h).1.backend with
        | none => rw [hi.none hb st0 hm0] at ho0; cases ho0
        | some b =>
          obtain ⟨pre, st1, e, hp, hop, _, _⟩ := hi.some b hb
          have : st0 = st1 := by
            rw [e] at hm0
            rcases List.mem_append.1 hm0 with h' | h'
            · rw [hp st0 h'] at ho0; cases ho0
            · exact List.mem_singleton.1 h'
          subst this
          obtain ⟨_, fl, h5, _⟩ := C17_reuse f h o m pre st0 e ho0
            (Classical.byContradiction fun h' => hc0 (Or.inr h'))
          rw [h5] at hst
          rw [e] at ih
          rcases List.mem_append.1 hst with hst | hst
          · exact ih st (List.mem_append_left _ hst)
          · rw [List.mem_singleton.1 hst]
            exact ih st0 (by simp)
  obtain ⟨h, e, hh⟩ := key ops
  intro w
  have hw : w = (World.run { path := p, sink := Sink.init .stat f } ops).step (.emit m fresh) := rfl
  generalize (World.run { path := p, sink := Sink.init .stat f } ops) = w0 at *
  rw [hw]
  simp only [World.step]
  have hn := noted h hh
  by_cases hd : ∀ st ∈ ((Sink.init .stat f).run h).1.streams, st.isOpen = true → w0.path = none ∨ w0.path ≠ st.noted
  · obtain ⟨old, hops, hcl, hcase⟩ := C17_reopen f h
      { check := w0.path, opened := some (openFor w0.path fresh), recorded := some (openFor w0.path fresh) } m hd
    rcases hcase with ⟨i, j, fl, h1, h2, h3, h4, h5⟩ | ⟨h1, h2, h3⟩
    · rw [e, h5]
      refine ⟨old, _, [], fl, rfl, ?_, rfl, h4⟩
      have hl : old.length = ((Sink.init .stat f).run h).1.streams.length := by
        have := congrArg List.length hops
        simpa using this
      rw [if_neg (by simp [hl])]
      simpa using h1
    · rcases C14_throws_only_on_errors .stat f h
        { check := w0.path, opened := some (openFor w0.path fresh), recorded := some (openFor w0.path fresh) } m with
        h' | h' | h'
      · exact absurd h' h1
      · cases h'.2
      · cases h'.2.1
  · have ⟨st0, hm0, ho0, hc0⟩ : ∃ st0 ∈ ((Sink.init .stat f).run h).1.streams, st0.isOpen = true
        ∧ ¬ (w0.path = none ∨ w0.path ≠ st0.noted) := by
      apply Classical.byContradiction
      intro hcon
      apply hd
      intro st hst hop
      apply Classical.byContradiction
      intro hc
      exact hcon ⟨st, hst, hop, hc⟩
    have hi := (run_inv (Inv.init .stat f) h).1
    have hc1 : w0.path = st0.noted := Classical.byContradiction fun h' => hc0 (Or.inr h')
    cases hb : ((Sink.init .stat f).run h).1.backend with
    | none => rw [hi.none hb st0 hm0] at ho0; cases ho0
    | some b =>
      obtain ⟨pre, st1, e1, hp, hop, _, _⟩ := hi.some b hb
      have : st0 = st1 := by
        rw [e1] at hm0
        rcases List.mem_append.1 hm0 with h' | h'
        · rw [hp st0 h'] at ho0; cases ho0
        · exact List.mem_singleton.1 h'
      subst this
      obtain ⟨_, fl, h5, h6⟩ := C17_reuse f h
        { check := w0.path, opened := some (openFor w0.path fresh), recorded := some (openFor w0.path fresh) } m
        pre st0 e1 ho0 hc1
      rw [e, h5]
      refine ⟨pre, _, st0.ops, fl, rfl, ?_, by simp, h6⟩
      rw [e1, if_pos (by simp)]
      rcases hn st0 hm0 with h' | h'
      · rw [hc1, h']
      · rw [ho0] at h'; cases h'

/-- Moving the file away between two emits: the second message is in a new file. -/
example :
    let w := World.run { path := some 5, sink := Sink.init .stat (.repeat 0) }
      [.emit (ch! "a") 6, .external none, .emit (ch! "b") 7];
    w.path = some 7 ∧ w.sink.streams.map (fun st => (st.inode, chunks st.ops)) = [(5, [ch! "a\n"]), (7, [ch! "b\n"])] := by
  decide

/-- If the file is replaced between opening it and noting its inode, messages go to the replaced file for as long as
the new one stays in place. -/
theorem C17_fails_race :
    let r := (Sink.init .stat (.repeat 0)).run
      [(⟨none, some 5, some 6⟩, ch! "a"), (⟨some 6, some 6, some 6⟩, ch! "b")];
    r.1.streams.map (fun st => (st.inode, chunks st.ops)) = [(5, [ch! "a\n", ch! "b\n"])] := by decide

/-! ## C18: data size strings -/

/-- A string is accepted with value `v` exactly if it is a decimal number that fits in 64 bits followed by one of the
suffixes, and `v` is the product modulo 2^64. -/
theorem C18_accepts (s : Str) (v : Nat) : parseDunit s = .ok v ↔ DataSize s v := by
  have hu : u64 = 2 ^ 64 := by decide
  constructor
  · intro h
    have hs : s = s.takeWhile isDigit ++ s.dropWhile isDigit := List.takeWhile_append_dropWhile.symm
    have hd : ∀ c ∈ s.takeWhile isDigit, Digit c := fun c hc => (isDigit_iff c).1 (by
      have := List.all_takeWhile (p := isDigit) (l := s)
      exact List.all_eq_true.1 this c hc)
    unfold parseDunit at h
    simp only [lexicalCast_eq] at h
    split at h
    · rename_i hnil
      rw [hnil, List.append_nil] at hs
      split at h
      · cases h
      · rename_i hne
        split at h
        · rename_i hlt
          injection h with h
          refine ⟨s, [], 1, by simp, hne, ?_, hlt, .none, ?_⟩
          · rw [hs]; exact hd
          · rw [Nat.mul_one, Nat.mod_eq_of_lt hlt, h]
        · cases h
    · rename_i hnil
      split at h
      · cases h
      · rename_i base hbase
        split at hbase
        · cases hbase
        · rename_i hne
          split at hbase
          · rename_i hlt
            injection hbase with hbase
            subst hbase
            split at h
            · cases h
            · rename_i m hm
              injection h with h
              exact ⟨_, _, m, hs, hne, hd, hlt, (lookup_iff hnil).1 hm, by rw [← h, hu]⟩
          · cases hbase
  · rintro ⟨ds, suf, m, rfl, hne, hd, hlt, hsuf, rfl⟩
    obtain ⟨h1, h2⟩ := takeDrop (fun c hc => (isDigit_iff c).2 (hd c hc)) (suffix_head hsuf)
    unfold parseDunit
    simp only [h1, h2, lexicalCast_eq]
    by_cases hs : suf = []
    · subst hs
      cases hsuf
      simp [hne, hlt, Nat.mod_eq_of_lt hlt]
    · simp [hs, hne, hlt, (lookup_iff hs).2 hsuf, hu]

/-- Any other string is rejected with an exception. -/
theorem C18_rejects (s : Str) : (∀ v, ¬ DataSize s v) ↔ ∃ e, parseDunit s = .error e := by
  constructor
  · intro h
    cases hp : parseDunit s with
    | error e => exact ⟨e, rfl⟩
    | ok v => exact absurd ((C18_accepts s v).1 hp) (h v)
  · rintro ⟨e, he⟩ v hv
    rw [(C18_accepts s v).2 hv] at he
    cases he

/-- The product is taken modulo 2^64: 17179869184GiB is zero, which then means "do not flush". -/
theorem C18_wraps : DataSize (ch! "17179869184GiB") 0 := by
  rw [← C18_accepts]; rfl

example : DataSize (ch! "16MiB") 16777216 := by rw [← C18_accepts]; rfl
example : ∃ e, parseDunit (ch! "16 MB") = .error e := ⟨.unknownUnit (ch! " MB"), rfl⟩
example : ∃ e, parseDunit (ch! "MB") = .error e := ⟨.badLexicalCast, rfl⟩
example : ∃ e, parseDunit [] = .error e := ⟨.badLexicalCast, rfl⟩
example : ∃ e, parseDunit (ch! "18446744073709551616") = .error e := ⟨.badLexicalCast, rfl⟩

end Blackhole.File
