import Verif.Ring.Lemmas

/-! # The queue inside the asynchronous sink: refinement of the contract -/

namespace Blackhole.Ring
variable {E : Type} {policy : Async.Policy} {s s' : State E}

/-- Where `Verif.Async` sees a producer. -/
def PPc.simple : PPc E → Async.PPc E
  | .idle => .idle
  | .start e => .trying e
  | .loaded e _ => .trying e
  | .seen e _ _ => .trying e
  | .behind e _ => .trying e
  | .full e => .full e
  | .claimed _ _ => .idle
  | .writing _ _ => .idle
  | .written _ _ => .idle

/-- Where `Verif.Async` sees the worker. -/
def CPc.simple (claims : List (Nat × E)) : CPc E → Async.CPc E
  | .loop => .loop
  | .loaded _ => .loop
  | .seen _ _ => .loop
  | .behind _ => .loop
  | .taken pos => .got claims[pos]?
  | .reading pos => .got claims[pos]?
  | .copied _ x => .got (some x)
  | .got e => .got e
  | .deliver e => .deliver e
  | .sleep => .sleep
  | .exited => .exited
  | .terminated => .terminated
  | .corrupt => .terminated

/-- The state of `Verif.Async` that corresponds to a state. -/
def State.simple (s : State E) : Async.State E :=
  { queue := s.claims.drop s.head, producers := fun p => (s.producers p).simple, consumer := s.consumer.simple s.claims,
    stopped := s.stopped, joined := s.joined, trace := s.trace.filterMap Ev.simple }

/-- A state of `Verif.Async` reaches another one by some steps. -/
def Leads (cap : Nat) (policy : Async.Policy) (a b : Async.State E) : Prop := ∃ cs, a.run cap policy cs = some b

theorem Leads.none {cap : Nat} {a : Async.State E} : Leads cap policy a a := ⟨[], rfl⟩

theorem Leads.one {cap : Nat} {a b : Async.State E} (c : Async.Cmd E) (h : a.step cap policy c = some b) :
    Leads cap policy a b := ⟨[c], by simp [Async.State.run, h]⟩

theorem async_run_append {cap : Nat} {a : Async.State E} (cs ds : List (Async.Cmd E)) :
    a.run cap policy (cs ++ ds) = (a.run cap policy cs).bind (·.run cap policy ds) := by
  induction cs generalizing a with
  | nil => rfl
  | cons c cs ih =>
    simp only [List.cons_append, Async.State.run]
    cases a.step cap policy c with
    | none => rfl
    | some b => exact ih

theorem Leads.trans {cap : Nat} {a b c : Async.State E} (h1 : Leads cap policy a b) (h2 : Leads cap policy b c) :
    Leads cap policy a c := by
  obtain ⟨cs, h1⟩ := h1
  obtain ⟨ds, h2⟩ := h2
  exact ⟨cs ++ ds, by rw [async_run_append, h1]; exact h2⟩

theorem producers_go (s : State E) (p : Nat) (x : PPc E) :
    (fun q => ((s.go p x).producers q).simple) = fun q => if q = p then x.simple else (s.producers q).simple := by
  funext q
  simp only [State.go, upd]
  split <;> rfl

/-- A step that does not change what `Verif.Async` sees of the producer. -/
theorem simple_go (p : Nat) (x : PPc E) (h : x.simple = (s.producers p).simple) : (s.go p x).simple = s.simple := by
  have : (fun q => ((s.go p x).producers q).simple) = fun q => (s.producers q).simple := by
    rw [producers_go]
    funext q
    split
    · rename_i e; subst e; exact h
    · rfl
  simp only [State.simple, this]
  rfl

theorem simple_produce {k p : Nat} {b : Bool} (hk : 1 ≤ k) (h : Inv (2 ^ k) s) (hs : s.produce (2 ^ k) policy p b = some s') :
    Leads (2 ^ k) policy s.simple s'.simple := by
  have hcap : 2 ≤ 2 ^ k := by
    have := Nat.pow_le_pow_right (n := 2) (by omega) hk
    simpa using this
  have hg := h.prod p
  have hlen : (s.claims.drop s.head).length = s.tail - s.head := by rw [List.length_drop, h.count]
  have hb := base_le h
  have quiet : ∀ {t : State E} {x : PPc E}, t.simple = s.simple → t.producers = s.producers →
      x.simple = (s.producers p).simple → Leads (2 ^ k) policy s.simple (t.go p x).simple := by
    intro t x h1 h2 h3
    rw [simple_go p x (by rw [h2]; exact h3), h1]
    exact .none
  simp only [State.produce] at hs
  split at hs
  · cases hs
  · rename_i e hp
    cases hs; exact quiet rfl rfl (by rw [hp]; rfl)
  · rename_i e pos hp
    cases hs; exact quiet rfl rfl (by rw [hp]; rfl)
  · rename_i e pos n hp
    rw [hp] at hg
    split at hs
    · rename_i hn
      split at hs
      · rename_i ht
        cases hs
        have hsq := hg.2 hn ht.1
        have hr := room hcap h (by rw [ht.1]; exact hsq)
        refine .one (.producer p) ?_
        have hl : (s.simple).queue.length < 2 ^ k := by
          show (s.claims.drop s.head).length < _
          rw [hlen]; omega
        have htry : s.simple.producers p = .trying e := by show (s.producers p).simple = _; rw [hp]; rfl
        simp only [Async.State.step, Async.State.produce, htry, if_pos hl, Option.some.injEq]
        have hd : (s.claims ++ [(p, e)]).drop s.head = s.claims.drop s.head ++ [(p, e)] :=
          List.drop_append_of_le_length (by rw [h.count]; exact h.low)
        have hgen : ∀ (x : PPc E) (t : State E), t.producers = s.producers →
            (fun q => ((t.go p x).producers q).simple) = fun q => if q = p then x.simple else (s.producers q).simple := by
          intro x t ht; rw [producers_go, ht]
        have hcons : s.consumer.simple (s.claims ++ [(p, e)]) = s.consumer.simple s.claims := by
          have hc := h.cons
          have hlow := h.low
          have hcount := h.count
          cases hcc : s.consumer <;> rw [hcc] at hc <;> simp only [CGood] at hc <;> simp only [CPc.simple]
          · rw [List.getElem?_append_left (by omega)]
          · rw [List.getElem?_append_left (by omega)]
        simp only [State.simple, State.say, Async.State.setProducer, List.filterMap_append]
        rw [hgen _ { s with tail := pos + 1, claims := s.claims ++ [(p, e)] } rfl]
        simp only [State.go, hd, hcons]
        rfl
      · cases hs; exact quiet rfl rfl (by rw [hp]; rfl)
    · split at hs
      · cases hs; exact quiet rfl rfl (by rw [hp]; rfl)
      · cases hs; exact quiet rfl rfl (by rw [hp]; rfl)
  · rename_i e pos hp
    cases hs
    rw [hp] at hg
    have hg : pos ≤ s.tail := hg
    split
    · rename_i hf
      refine .one (.producer p) ?_
      have hl : ¬ (s.simple).queue.length < 2 ^ k := by
        show ¬ (s.claims.drop s.head).length < _
        rw [hlen]; omega
      have htry : s.simple.producers p = .trying e := by show (s.producers p).simple = _; rw [hp]; rfl
      simp only [Async.State.step, Async.State.produce, htry, if_neg hl, Option.some.injEq]
      simp only [State.simple, Async.State.setProducer]
      rw [producers_go]
      rfl
    · exact quiet rfl rfl (by rw [hp]; rfl)
  · rename_i e hp
    have hfull : s.simple.producers p = .full e := by show (s.producers p).simple = _; rw [hp]; rfl
    split at hs
    · rename_i ho
      cases hs
      refine .one (.producer p) ?_
      simp only [Async.State.step, Async.State.produce, hfull, ho, Option.some.injEq]
      simp only [State.simple, Async.State.setProducer]
      rw [producers_go]
      rfl
    · rename_i ho
      cases hs
      refine .one (.producer p) ?_
      simp only [Async.State.step, Async.State.produce, hfull, ho, Option.some.injEq]
      simp only [State.simple, State.say, Async.State.setProducer, List.filterMap_append]
      rw [producers_go]
      rfl
  · rename_i e pos hp
    cases hs; exact quiet rfl rfl (by rw [hp]; rfl)
  · rename_i e pos hp
    cases hs; exact quiet rfl rfl (by rw [hp]; rfl)
  · rename_i e pos hp
    cases hs
    have : (({ s with seq := upd s.seq (cell (2 ^ k) pos) (pos + 1) }.go p .idle).say (.returned p e)).simple =
        ({ s with seq := upd s.seq (cell (2 ^ k) pos) (pos + 1) }.go p .idle).simple := by
      simp only [State.simple, State.say, List.filterMap_append]
      simp [Ev.simple]
    rw [this]
    exact quiet rfl rfl (by rw [hp]; rfl)

theorem simple_consume {k : Nat} {b : Bool} (hk : 1 ≤ k) (h : Inv (2 ^ k) s) (hs : s.consume (2 ^ k) b = some s') :
    Leads (2 ^ k) policy s.simple s'.simple := by
  have hcap : 2 ≤ 2 ^ k := by
    have := Nat.pow_le_pow_right (n := 2) (by omega) hk
    simpa using this
  have hg := h.cons
  have hcount := h.count
  simp only [State.consume] at hs
  have quiet : ∀ {y : CPc E}, y.simple s.claims = s.consumer.simple s.claims →
      Leads (2 ^ k) policy s.simple ({ s with consumer := y } : State E).simple := by
    intro y h1
    have : ({ s with consumer := y } : State E).simple = s.simple := by simp only [State.simple, h1]
    rw [this]
    exact .none
  split at hs
  · rename_i hc
    cases hs; exact quiet (by rw [hc]; rfl)
  · rename_i pos hc
    cases hs; exact quiet (by rw [hc]; rfl)
  · rename_i pos n hc
    split at hs
    · rename_i hn
      subst hn
      split at hs
      · rename_i ht
        have hi := inv_take hcap h hc
        have hlow := hi.low
        cases hs
        have hlow : pos + 1 ≤ s.tail := hlow
        refine .one .consumer ?_
        have hq : s.simple.queue = s.claims[pos]'(by omega) :: s.claims.drop (pos + 1) := by
          show s.claims.drop s.head = _
          rw [ht.1]
          exact (List.getElem_cons_drop (by omega)).symm
        have hl : s.simple.consumer = .loop := by show s.consumer.simple _ = _; rw [hc]; rfl
        simp only [Async.State.step, Async.State.consume, hl, hq]
        simp only [State.simple, CPc.simple]
        rw [List.getElem?_eq_getElem (by omega)]
      · cases hs; exact quiet (by rw [hc]; rfl)
    · split at hs
      · cases hs; exact quiet (by rw [hc]; rfl)
      · cases hs; exact quiet (by rw [hc]; rfl)
  · rename_i pos hc
    rw [hc] at hg
    have hg : pos = s.head := hg
    cases hs
    split
    · rename_i ht
      refine .one .consumer ?_
      have hq : s.simple.queue = [] := by
        show s.claims.drop s.head = _
        exact List.drop_eq_nil_of_le (by omega)
      have hl : s.simple.consumer = .loop := by show s.consumer.simple _ = _; rw [hc]; rfl
      simp only [Async.State.step, Async.State.consume, hl, hq]
      have hq : s.claims.drop s.head = [] := hq
      simp only [State.simple, CPc.simple, hq]
    · exact quiet (by rw [hc]; rfl)
  · rename_i pos hc
    cases hs; exact quiet (by rw [hc]; rfl)
  · rename_i pos hc
    rw [hc] at hg
    obtain ⟨g1, g2, g3⟩ := hg
    simp only [cell_eq] at hs
    split at hs
    · rename_i x hd
      cases hs
      have : ({ s with consumer := .copied pos x, data := upd s.data (pos % 2 ^ k) none } : State E).simple = s.simple := by
        simp only [State.simple, hc, CPc.simple]
        rw [← g3, hd]
      rw [this]
      exact .none
    · rename_i hd
      rw [g3] at hd
      have := h.low
      rw [List.getElem?_eq_none_iff] at hd
      omega
  · rename_i pos x hc
    cases hs
    have : ({ s with consumer := .got (some x), seq := upd s.seq (cell (2 ^ k) pos) (pos + 2 ^ k) } : State E).simple =
        s.simple := by
      simp only [State.simple, hc, CPc.simple]
    rw [this]
    exact .none
  · rename_i hc
    have hl : s.simple.consumer = .got none := by show s.consumer.simple _ = _; rw [hc]; rfl
    split at hs
    · rename_i hst
      cases hs
      refine .one .consumer ?_
      simp only [Async.State.step, Async.State.consume, hl]
      rw [if_pos (show s.simple.stopped = true from hst)]
      rfl
    · rename_i hst
      cases hs
      refine .one .consumer ?_
      simp only [Async.State.step, Async.State.consume, hl]
      rw [if_neg (show ¬ s.simple.stopped = true from hst)]
      rfl
  · rename_i e hc
    have hl : s.simple.consumer = .got (some e) := by show s.consumer.simple _ = _; rw [hc]; rfl
    cases hs
    refine .one .consumer ?_
    simp only [Async.State.step, Async.State.consume, hl]
    rfl
  · rename_i e hc
    have hl : s.simple.consumer = .deliver e := by show s.consumer.simple _ = _; rw [hc]; rfl
    cases hs
    refine .one .consumer ?_
    simp only [Async.State.step, Async.State.consume, hl]
    simp only [State.simple, State.say, List.filterMap_append]
    rfl
  · rename_i hc
    have hl : s.simple.consumer = .sleep := by show s.consumer.simple _ = _; rw [hc]; rfl
    cases hs
    refine .one .consumer ?_
    simp only [Async.State.step, Async.State.consume, hl]
    rfl
  · cases hs
  · cases hs
  · cases hs

theorem simple_step {k : Nat} {c : Cmd E} (hk : 1 ≤ k) (h : Inv (2 ^ k) s) (hc : ∀ p, c ≠ .throws p)
    (hs : s.step (2 ^ k) policy c = some s') : Leads (2 ^ k) policy s.simple s'.simple := by
  cases c with
  | emit p e =>
    simp only [State.step] at hs
    split at hs
    · rename_i hp
      cases hs
      refine .one (.emit p e) ?_
      have hl : s.simple.producers p = .idle := by show (s.producers p).simple = _; rw [hp]; rfl
      simp only [Async.State.step, hl, Option.some.injEq]
      simp only [State.simple, State.say, Async.State.setProducer, List.filterMap_append]
      rw [producers_go]
      rfl
    · cases hs
  | producer p b => exact simple_produce hk h hs
  | throws p => exact absurd rfl (hc p)
  | consumer b => exact simple_consume hk h hs
  | consumerThrows =>
    simp only [State.step] at hs
    split at hs
    · rename_i e hc
      cases hs
      refine .one .consumerThrows ?_
      have hl : s.simple.consumer = .deliver e := by show s.consumer.simple _ = _; rw [hc]; rfl
      simp only [Async.State.step, hl]
      simp only [State.simple, State.say, List.filterMap_append]
      rfl
    · cases hs
  | stop =>
    simp only [State.step] at hs
    split at hs
    · cases hs
    · rename_i hst
      cases hs
      refine .one .stop ?_
      simp only [Async.State.step]
      rw [if_neg (show ¬ s.simple.stopped = true from hst)]
      simp only [State.simple, State.say, List.filterMap_append]
      rfl
  | join =>
    simp only [State.step] at hs
    split at hs
    · rename_i h1 h2 h3
      cases hs
      refine .one .join ?_
      have hl : s.simple.consumer = .exited := by show s.consumer.simple _ = _; rw [h3]; rfl
      have hj : s.simple.joined = false := h2
      have hst : s.simple.stopped = true := h1
      simp only [Async.State.step, hl, hj, hst]
      simp only [State.simple, State.say, List.filterMap_append, h1, h3]
      rfl
    · cases hs

theorem simple_run {k : Nat} {cs : List (Cmd E)} (hk : 1 ≤ k) (h : Inv (2 ^ k) s) (hf : NoFailure cs)
    (hs : s.run (2 ^ k) policy cs = some s') : Leads (2 ^ k) policy s.simple s'.simple := by
  induction cs generalizing s with
  | nil => cases hs; exact .none
  | cons c cs ih =>
    simp only [State.run, Option.bind_eq_some_iff] at hs
    obtain ⟨m, h1, h2⟩ := hs
    exact (simple_step hk h (fun p e => hf p (by simp [e])) h1).trans
      (ih (inv_step hk h h1) (fun p hp => hf p (by simp [hp])) h2)

end Blackhole.Ring
