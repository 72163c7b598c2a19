import Verif.Ring.Refine

/-! # The queue inside the asynchronous sink: what the trace says -/

namespace Blackhole.Ring
variable {E : Type} {policy : Async.Policy} {s s' : State E}

/-- What the worker has taken out and not delivered yet. -/
def CPc.hand (claims : List (Nat × E)) : CPc E → List (Nat × E)
  | .taken pos => claims[pos]?.toList
  | .reading pos => claims[pos]?.toList
  | .copied _ x => [x]
  | .got (some x) => [x]
  | .deliver x => [x]
  | _ => []

structure Told (s : State E) : Prop where
  claimed : claimed s.trace = s.claims
  delivered : delivered s.trace ++ s.consumer.hand s.claims = s.claims.take s.head

theorem claimed_snoc (tr : List (Ev E)) (e : Ev E) : claimed (tr ++ [e]) = claimed tr ++ claimed [e] := by
  simp [claimed, List.filterMap_append]

theorem delivered_snoc (tr : List (Ev E)) (e : Ev E) : delivered (tr ++ [e]) = delivered tr ++ delivered [e] := by
  simp [delivered, List.filterMap_append]

theorem told_step {k : Nat} {c : Cmd E} (hk : 1 ≤ k) (h : Inv (2 ^ k) s) (ht : Told s)
    (hs : s.step (2 ^ k) policy c = some s') : Told s' := by
  have hcap : 2 ≤ 2 ^ k := by
    have := Nat.pow_le_pow_right (n := 2) (by omega) hk
    simpa using this
  obtain ⟨t1, t2⟩ := ht
  have hcount := h.count
  have hlow := h.low
  have say : ∀ {t : State E} (e : Ev E), Ring.claimed [e] = [] → Ring.delivered [e] = [] → Told t → Told (t.say e) := by
    intro t e h1 h2 h3
    exact ⟨by simp only [State.say]; rw [claimed_snoc, h1, List.append_nil]; exact h3.claimed,
      by simp only [State.say]; rw [delivered_snoc, h2, List.append_nil]; exact h3.delivered⟩
  cases c with
  | emit p e =>
    simp only [State.step] at hs
    split at hs
    · cases hs; exact say _ rfl rfl ⟨t1, t2⟩
    · cases hs
  | producer p b =>
    simp only [State.step, State.produce] at hs
    split at hs
    · cases hs
    · cases hs; exact ⟨t1, t2⟩
    · cases hs; exact ⟨t1, t2⟩
    · rename_i e pos n hp
      split at hs
      · split at hs
        · rename_i ht
          cases hs
          refine ⟨?_, ?_⟩
          · simp only [State.say, State.go]
            rw [claimed_snoc, t1]
            rfl
          · simp only [State.say, State.go]
            rw [delivered_snoc, List.take_append_of_le_length (by omega)]
            have hcons : s.consumer.hand (s.claims ++ [(p, e)]) = s.consumer.hand s.claims := by
              have hc := h.cons
              cases hcc : s.consumer <;> rw [hcc] at hc <;> simp only [CGood] at hc <;> simp only [CPc.hand]
              · rw [List.getElem?_append_left (by omega)]
              · rw [List.getElem?_append_left (by omega)]
              · rename_i o; cases o <;> rfl
            rw [hcons, show Ring.delivered [Ev.claim p e] = [] from rfl, List.append_nil]
            exact t2
        · cases hs; exact ⟨t1, t2⟩
      · split at hs
        · cases hs; exact ⟨t1, t2⟩
        · cases hs; exact ⟨t1, t2⟩
    · cases hs; exact ⟨t1, t2⟩
    · split at hs
      · cases hs; exact ⟨t1, t2⟩
      · cases hs; exact say _ rfl rfl ⟨t1, t2⟩
    · cases hs; exact ⟨t1, t2⟩
    · cases hs; exact ⟨t1, t2⟩
    · cases hs; exact say _ rfl rfl ⟨t1, t2⟩
  | throws p =>
    simp only [State.step, State.fail] at hs
    split at hs
    · cases hs; exact say _ rfl rfl ⟨t1, t2⟩
    · cases hs; exact say _ rfl rfl ⟨t1, t2⟩
    · cases hs
  | consumer b =>
    have hg := h.cons
    simp only [State.step, State.consume] at hs
    have quiet : ∀ {y : CPc E}, y.hand s.claims = s.consumer.hand s.claims → Told { s with consumer := y } := by
      intro y hy
      exact ⟨t1, by simp only; rw [hy]; exact t2⟩
    split at hs
    · rename_i hc
      cases hs; exact quiet (by rw [hc]; rfl)
    · rename_i hc
      cases hs; exact quiet (by rw [hc]; rfl)
    · rename_i pos n hc
      split at hs
      · rename_i hn
        subst hn
        split at hs
        · rename_i ht
          have hi := (inv_take hcap h hc).low
          have hi : pos + 1 ≤ s.tail := hi
          cases hs
          refine ⟨t1, ?_⟩
          have t2 : Ring.delivered s.trace ++ [] = s.claims.take pos := by
            rw [hc] at t2; rw [← ht.1]; exact t2
          rw [List.append_nil] at t2
          simp only [CPc.hand]
          rw [t2, List.take_add_one]
        · cases hs; exact quiet (by rw [hc]; rfl)
      · split at hs
        · cases hs; exact quiet (by rw [hc]; rfl)
        · cases hs; exact quiet (by rw [hc]; rfl)
    · rename_i hc
      cases hs
      split
      · exact quiet (by rw [hc]; rfl)
      · exact quiet (by rw [hc]; rfl)
    · rename_i hc
      cases hs; exact quiet (by rw [hc]; rfl)
    · rename_i pos hc
      rw [hc] at hg
      obtain ⟨g1, g2, g3⟩ := hg
      simp only [cell_eq] at hs
      split at hs
      · rename_i x hd
        cases hs
        refine ⟨t1, ?_⟩
        rw [hc] at t2
        simp only [CPc.hand] at t2 ⊢
        rw [← g3, hd] at t2
        exact t2
      · rename_i hd
        rw [g3] at hd
        rw [List.getElem?_eq_none_iff] at hd
        omega
    · rename_i hc
      cases hs
      refine ⟨t1, ?_⟩
      rw [hc] at t2
      exact t2
    · rename_i hc
      split at hs
      · cases hs; exact quiet (by rw [hc]; rfl)
      · cases hs; exact quiet (by rw [hc]; rfl)
    · rename_i hc
      cases hs; exact quiet (by rw [hc]; rfl)
    · rename_i e hc
      cases hs
      refine ⟨by simp only [State.say]; rw [claimed_snoc, t1]; simp [Ring.claimed], ?_⟩
      rw [hc] at t2
      simp only [State.say]
      rw [delivered_snoc]
      simpa [CPc.hand, Ring.delivered] using t2
    · rename_i hc
      cases hs; exact quiet (by rw [hc]; rfl)
    · cases hs
    · cases hs
    · cases hs
  | consumerThrows =>
    simp only [State.step] at hs
    split at hs
    · rename_i e hc
      cases hs
      refine ⟨by simp only [State.say]; rw [claimed_snoc, t1]; simp [Ring.claimed], ?_⟩
      rw [hc] at t2
      simp only [State.say]
      rw [delivered_snoc]
      simpa [CPc.hand, Ring.delivered] using t2
    · cases hs
  | stop =>
    simp only [State.step] at hs
    split at hs
    · cases hs
    · cases hs; exact say _ rfl rfl ⟨t1, t2⟩
  | join =>
    simp only [State.step] at hs
    split at hs
    · cases hs; exact say _ rfl rfl ⟨t1, t2⟩
    · cases hs

theorem told_run {k : Nat} {cs : List (Cmd E)} (hk : 1 ≤ k) (h : Inv (2 ^ k) s) (ht : Told s)
    (hs : s.run (2 ^ k) policy cs = some s') : Told s' := by
  induction cs generalizing s with
  | nil => cases hs; exact ht
  | cons c cs ih =>
    simp only [State.run, Option.bind_eq_some_iff] at hs
    obtain ⟨m, h1, h2⟩ := hs
    exact ih (inv_step hk h h1) (told_step hk h ht h1) h2

/-! ## The calls of a producer -/

/-- Calls that have ended. -/
inductive Done (p : Nat) : List (Ev E) → Prop
  | none : Done p []
  | accepted {e : E} {tr : List (Ev E)} : Done p tr → Done p (.call p e :: .claim p e :: .returned p e :: tr)
  | discarded {e : E} {tr : List (Ev E)} : Done p tr → Done p (.call p e :: .discard p e :: tr)
  | threw {e : E} {tr : List (Ev E)} : Done p tr → Done p (.call p e :: .claim p e :: .threw p e :: tr)

theorem Done.append {p : Nat} {a b : List (Ev E)} (h1 : Done p a) (h2 : Done p b) : Done p (a ++ b) := by
  induction h1 with
  | none => exact h2
  | accepted _ ih => exact .accepted ih
  | discarded _ ih => exact .discarded ih
  | threw _ ih => exact .threw ih

theorem Done.calls {p : Nat} {a b : List (Ev E)} (h1 : Done p a) (h2 : Calls p b) : Calls p (a ++ b) := by
  induction h1 with
  | none => exact h2
  | accepted _ ih => exact .accepted ih
  | discarded _ ih => exact .discarded ih
  | threw _ ih => exact .threw ih

/-- What is in the trace of the call that goes on. -/
def PPc.begun (p : Nat) : PPc E → List (Ev E)
  | .idle => []
  | .start e => [.call p e]
  | .loaded e _ => [.call p e]
  | .seen e _ _ => [.call p e]
  | .behind e _ => [.call p e]
  | .full e => [.call p e]
  | .claimed e _ => [.call p e, .claim p e]
  | .writing e _ => [.call p e, .claim p e]
  | .written e _ => [.call p e, .claim p e]

def CallsOf (s : State E) : Prop := ∀ p, ∃ d, Done p d ∧ s.trace.filter (Ev.by p) = d ++ (s.producers p).begun p

theorem calls_go (h : CallsOf s) {p : Nat} {x : PPc E} (hx : x.begun p = (s.producers p).begun p) : CallsOf (s.go p x) := by
  intro q
  obtain ⟨d, h1, h2⟩ := h q
  refine ⟨d, h1, ?_⟩
  simp only [State.go]
  by_cases hq : q = p
  · subst hq; rw [upd_same, hx]; exact h2
  · rw [upd_ne _ _ hq]; exact h2

/-- An event of producer `p`. -/
theorem calls_say {t : State E} (h : CallsOf s) {p : Nat} {x : PPc E} {e : Ev E} (he : ∀ q, e.by q = decide (p = q))
    (ht : t.trace = s.trace) (hp : t.producers = s.producers)
    (hx : x.begun p = (s.producers p).begun p ++ [e] ∨
      (x.begun p = [] ∧ Done p ((s.producers p).begun p ++ [e]))) : CallsOf ((t.go p x).say e) := by
  intro q
  obtain ⟨d, h1, h2⟩ := h q
  simp only [State.say, State.go, ht, hp, List.filter_append]
  by_cases hq : q = p
  · subst hq
    rw [upd_same, h2]
    have : [e].filter (Ev.by q) = [e] := by simp [he]
    rw [this]
    rcases hx with hx | ⟨hx, hd⟩
    · exact ⟨d, h1, by rw [hx, List.append_assoc]⟩
    · exact ⟨d ++ ((s.producers q).begun q ++ [e]), h1.append hd, by rw [hx, List.append_nil, List.append_assoc]⟩
  · refine ⟨d, h1, ?_⟩
    rw [upd_ne _ _ hq, h2]
    have : [e].filter (Ev.by q) = [] := by simp [he, Ne.symm hq]
    rw [this, List.append_nil]

/-- An event of nobody. -/
theorem calls_other {t : State E} (h : CallsOf s) {e : Ev E} (he : ∀ q, e.by q = false) (ht : t.trace = s.trace)
    (hp : t.producers = s.producers) : CallsOf (t.say e) := by
  intro q
  obtain ⟨d, h1, h2⟩ := h q
  refine ⟨d, h1, ?_⟩
  simp only [State.say, ht, hp, List.filter_append]
  have : [e].filter (Ev.by q) = [] := by simp [he]
  rw [this, List.append_nil]
  exact h2

theorem calls_step {cap : Nat} {c : Cmd E} (h : CallsOf s) (hs : s.step cap policy c = some s') : CallsOf s' := by
  cases c with
  | emit p e =>
    simp only [State.step] at hs
    split at hs
    · rename_i hp
      cases hs
      exact calls_say h (fun q => rfl) rfl rfl (.inl (by rw [hp]; rfl))
    · cases hs
  | producer p b =>
    simp only [State.step, State.produce] at hs
    split at hs
    · cases hs
    · rename_i hp
      cases hs; exact calls_go h (by rw [hp]; rfl)
    · rename_i hp
      cases hs; exact calls_go h (by rw [hp]; rfl)
    · rename_i e pos n hp
      split at hs
      · split at hs
        · cases hs
          exact calls_say h (fun q => rfl) rfl rfl (.inl (by rw [hp]; rfl))
        · cases hs; exact calls_go h (by rw [hp]; rfl)
      · split at hs
        · cases hs; exact calls_go h (by rw [hp]; rfl)
        · cases hs; exact calls_go h (by rw [hp]; rfl)
    · rename_i hp
      cases hs
      refine calls_go h ?_
      rw [hp]
      split <;> rfl
    · rename_i hp
      split at hs
      · cases hs; exact calls_go h (by rw [hp]; rfl)
      · cases hs
        exact calls_say h (fun q => rfl) rfl rfl (.inr ⟨rfl, by rw [hp]; exact .discarded .none⟩)
    · rename_i e pos hp
      cases hs
      exact calls_go (s := { s with data := upd s.data (cell cap pos) none }) h (by simp only [hp]; rfl)
    · rename_i e pos hp
      cases hs
      exact calls_go (s := { s with data := upd s.data (cell cap pos) (some (p, e)) }) h (by simp only [hp]; rfl)
    · rename_i e pos hp
      cases hs
      exact calls_say h (fun q => rfl) rfl rfl (.inr ⟨rfl, by rw [hp]; exact .accepted .none⟩)
  | throws p =>
    simp only [State.step, State.fail] at hs
    split at hs
    · rename_i hp
      cases hs
      exact calls_say h (fun q => rfl) rfl rfl (.inr ⟨rfl, by rw [hp]; exact .threw .none⟩)
    · rename_i hp
      cases hs
      exact calls_say h (fun q => rfl) rfl rfl (.inr ⟨rfl, by rw [hp]; exact .threw .none⟩)
    · cases hs
  | consumer b =>
    have same : ∀ {t : State E}, t.trace = s.trace → t.producers = s.producers → CallsOf t := by
      intro t h1 h2 q
      rw [h1, h2]; exact h q
    simp only [State.step, State.consume] at hs
    (repeat' split at hs) <;> first
      | cases hs; done
      | (cases hs; exact same rfl rfl)
      | (cases hs; exact calls_other h (fun q => rfl) rfl rfl)
  | consumerThrows =>
    simp only [State.step] at hs
    split at hs
    · cases hs; exact calls_other h (fun q => rfl) rfl rfl
    · cases hs
  | stop =>
    simp only [State.step] at hs
    split at hs
    · cases hs
    · cases hs; exact calls_other h (fun q => rfl) rfl rfl
  | join =>
    simp only [State.step] at hs
    split at hs
    · cases hs; exact calls_other h (fun q => rfl) rfl rfl
    · cases hs

theorem calls_run {cap : Nat} {cs : List (Cmd E)} (h : CallsOf s) (hs : s.run cap policy cs = some s') : CallsOf s' := by
  induction cs generalizing s with
  | nil => cases hs; exact h
  | cons c cs ih =>
    simp only [State.run, Option.bind_eq_some_iff] at hs
    obtain ⟨m, h1, h2⟩ := hs
    exact ih (calls_step h h1) h2

theorem begun_calls (p : Nat) (x : PPc E) : Calls p (x.begun p) := by
  cases x <;> first | exact .none | exact .going | exact .placed

end Blackhole.Ring
