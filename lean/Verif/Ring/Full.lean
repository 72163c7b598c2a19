import Verif.Ring.History

/-! # The queue inside the asynchronous sink: when it is full, and when a copy fails -/

namespace Blackhole.Ring
variable {E : Type} {policy : Async.Policy} {s s' : State E}

/-- A call that was told that the queue is full, and every call that was discarded, saw it full. -/
structure Fair (cap : Nat) (s : State E) : Prop where
  full : ∀ p e, s.producers p = .full e → WasFull cap s.trace p e
  discards : ∀ a b p e, s.trace = a ++ .discard p e :: b → WasFull cap a p e

theorem WasFull.snoc {cap : Nat} {tr : List (Ev E)} {p : Nat} {e : E} {x : Ev E} (h : WasFull cap tr p e) (hx : x.by p = false) :
    WasFull cap (tr ++ [x]) p e := by
  obtain ⟨a, b, c, h1, h2, h3⟩ := h
  refine ⟨a, b, c ++ [x], by simp [h1], ?_, h3⟩
  intro y hy
  simp only [List.mem_append, List.mem_singleton] at hy h2
  rcases hy with hy | hy | rfl
  · exact h2 y (.inl hy)
  · exact h2 y (.inr hy)
  · exact hx

/-- A step that says nothing and tells no new producer that the queue is full. -/
theorem fair_quiet {cap : Nat} {t : State E} (h : Fair cap s) (h1 : t.trace = s.trace)
    (h2 : ∀ p e, t.producers p = .full e → s.producers p = .full e) : Fair cap t :=
  ⟨fun p e hp => by rw [h1]; exact h.full p e (h2 p e hp), fun a b p e ht => h.discards a b p e (by rw [← h1]; exact ht)⟩

theorem fair_go {cap : Nat} (h : Fair cap s) {p : Nat} {x : PPc E} (hx : ∀ e, x ≠ .full e) : Fair cap (s.go p x) := by
  refine fair_quiet h rfl ?_
  intro q e hq
  simp only [State.go] at hq
  by_cases hqp : q = p
  · subst hqp; rw [upd_same] at hq; exact absurd hq (hx e)
  · rw [upd_ne _ _ hqp] at hq; exact hq

/-- A step that says something. -/
theorem fair_say {cap : Nat} (h : Fair cap s) {x : Ev E} (h1 : ∀ p e, s.producers p = .full e → x.by p = false)
    (h2 : ∀ p e, x = .discard p e → WasFull cap s.trace p e) : Fair cap (s.say x) := by
  refine ⟨fun p e hp => (h.full p e hp).snoc (h1 p e hp), ?_⟩
  intro a b p e ht
  simp only [State.say] at ht
  rcases List.eq_nil_or_concat b with rfl | ⟨b', y, rfl⟩
  · obtain ⟨h3, h4⟩ := List.append_inj' ht rfl
    cases h4
    rw [← h3]
    exact h2 p e rfl
  · rw [List.concat_eq_append, ← List.cons_append, ← List.append_assoc] at ht
    obtain ⟨h3, h4⟩ := List.append_inj' ht rfl
    exact h.discards a b' p e h3

theorem fair_same {cap : Nat} {t : State E} (h : Fair cap s) (h1 : t.trace = s.trace) (h2 : t.producers = s.producers) :
    Fair cap t := fair_quiet h h1 (fun p e hp => by rw [← h2]; exact hp)

theorem was_full {k p pos : Nat} {e : E} (h : Inv (2 ^ k) s) (ht : Told s) (hc : CallsOf s) (hp : s.producers p = .behind e pos)
    (he : pos = s.head + 2 ^ k) : WasFull (2 ^ k) s.trace p e := by
  have hg := h.prod p
  rw [hp] at hg
  have hg : pos ≤ s.tail := hg
  obtain ⟨d, -, h2⟩ := hc p
  rw [hp, List.filter_eq_append_iff] at h2
  obtain ⟨l1, l2, h3, h4, h5⟩ := h2
  rw [PPc.begun, List.filter_eq_cons_iff] at h5
  obtain ⟨m1, m2, h6, h7, h8, h9⟩ := h5
  refine ⟨l1 ++ m1, m2, [], by rw [h3, h6]; simp, ?_, ?_⟩
  · intro x hx
    have := List.filter_eq_nil_iff.1 h9 x (by simpa using hx)
    simpa using this
  · have : l1 ++ m1 ++ Ev.call p e :: m2 = s.trace := by rw [h3, h6]; simp
    rw [this, ht.claimed, h.count]
    have := congrArg List.length ht.delivered
    rw [List.length_append, List.length_take, h.count] at this
    have := h.low
    omega

theorem fair_step {k : Nat} {c : Cmd E} (h : Inv (2 ^ k) s) (ht : Told s) (hc : CallsOf s) (hf : Fair (2 ^ k) s)
    (hs : s.step (2 ^ k) policy c = some s') : Fair (2 ^ k) s' := by
  have other : ∀ {p : Nat} {x : PPc E} {y : Ev E} {t : State E}, Fair (2 ^ k) t → (∀ e, x ≠ .full e) →
      (∀ q, y.by q = decide (p = q)) → (∀ q e, y = .discard q e → WasFull (2 ^ k) t.trace q e) →
      Fair (2 ^ k) ((t.go p x).say y) := by
    intro p x y t h1 h2 h3 h4
    refine fair_say (fair_go h1 h2) ?_ h4
    intro q e hq
    rw [h3]
    by_cases hqp : q = p
    · subst hqp
      simp only [State.go, upd_same] at hq
      exact absurd hq (h2 e)
    · simp [Ne.symm hqp]
  cases c with
  | emit p e =>
    simp only [State.step] at hs
    split at hs
    · cases hs
      exact other hf (by simp) (fun _ => rfl) (by simp)
    · cases hs
  | producer p b =>
    simp only [State.step, State.produce] at hs
    split at hs
    · cases hs
    · cases hs; exact fair_go hf (by simp)
    · cases hs; exact fair_go hf (by simp)
    · rename_i e pos n hp
      split at hs
      · split at hs
        · cases hs
          exact other (t := { s with tail := pos + 1, claims := s.claims ++ [(p, e)] }) (fair_same hf rfl rfl) (by simp)
            (fun _ => rfl) (by simp)
        · cases hs; exact fair_go hf (by simp)
      · split at hs
        · cases hs; exact fair_go hf (by simp)
        · cases hs; exact fair_go hf (by simp)
    · rename_i e pos hp
      cases hs
      split
      · rename_i he
        refine ⟨?_, hf.discards⟩
        intro q e' hq
        simp only [State.go] at hq ⊢
        by_cases hqp : q = p
        · subst hqp
          rw [upd_same] at hq
          cases hq
          exact was_full h ht hc hp he
        · rw [upd_ne _ _ hqp] at hq
          exact hf.full q e' hq
      · exact fair_go hf (by simp)
    · rename_i e hp
      split at hs
      · cases hs; exact fair_go hf (by simp)
      · cases hs
        refine other hf (by simp) (fun _ => rfl) ?_
        intro q e' he
        cases he
        exact hf.full _ _ hp
    · rename_i e pos hp
      cases hs
      exact fair_go (s := { s with data := upd s.data (cell (2 ^ k) pos) none }) (fair_same hf rfl rfl) (by simp)
    · rename_i e pos hp
      cases hs
      exact fair_go (s := { s with data := upd s.data (cell (2 ^ k) pos) (some (p, e)) }) (fair_same hf rfl rfl) (by simp)
    · rename_i e pos hp
      cases hs
      exact other (t := { s with seq := upd s.seq (cell (2 ^ k) pos) (pos + 1) }) (fair_same hf rfl rfl) (by simp)
        (fun _ => rfl) (by simp)
  | throws p =>
    simp only [State.step, State.fail] at hs
    split at hs
    · cases hs; exact other hf (by simp) (fun _ => rfl) (by simp)
    · cases hs; exact other hf (by simp) (fun _ => rfl) (by simp)
    · cases hs
  | consumer b =>
    simp only [State.step, State.consume] at hs
    (repeat' split at hs) <;> first
      | (cases hs; done)
      | (cases hs; exact fair_same hf rfl rfl)
      | (cases hs; refine fair_say ?_ (fun _ _ _ => rfl) (by simp); exact fair_same hf rfl rfl)
  | consumerThrows =>
    simp only [State.step] at hs
    split at hs
    · cases hs; refine fair_say ?_ (fun _ _ _ => rfl) (by simp); exact fair_same hf rfl rfl
    · cases hs
  | stop =>
    simp only [State.step] at hs
    split at hs
    · cases hs
    · cases hs; refine fair_say ?_ (fun _ _ _ => rfl) (by simp); exact fair_same hf rfl rfl
  | join =>
    simp only [State.step] at hs
    split at hs
    · cases hs; refine fair_say ?_ (fun _ _ _ => rfl) (by simp); exact fair_same hf rfl rfl
    · cases hs

theorem fair_run {k : Nat} {cs : List (Cmd E)} (hk : 1 ≤ k) (h : Inv (2 ^ k) s) (ht : Told s) (hc : CallsOf s)
    (hf : Fair (2 ^ k) s) (hs : s.run (2 ^ k) policy cs = some s') : Fair (2 ^ k) s' := by
  induction cs generalizing s with
  | nil => cases hs; exact hf
  | cons c cs ih =>
    simp only [State.run, Option.bind_eq_some_iff] at hs
    obtain ⟨m, h1, h2⟩ := hs
    exact ih (inv_step hk h h1) (told_step hk h ht h1) (calls_step hc h1) (fair_step h ht hc hf h1) h2

/-! ## A copy that failed -/

/-- Position `q` is claimed, not filled, and no call will fill it. -/
structure Lost (cap q : Nat) (s : State E) : Prop where
  low : s.head ≤ q
  high : q < s.tail
  unfilled : s.seq (q % cap) = q
  nobody : ∀ p e, (s.producers p).place ≠ some (e, q)

/-- A place that is not filled has not been taken out. -/
theorem head_le {cap q : Nat} (h : Inv cap s) (h1 : s.base ≤ q) (h2 : s.seq (q % cap) = q) : s.head ≤ q := by
  have hb := base_le h
  have hc := h.cons
  by_cases hq : s.base = s.head
  · omega
  · rcases Nat.lt_or_ge s.base q with h3 | h3
    · omega
    · have he : q = s.base := Nat.le_antisymm h3 h1
      exfalso
      cases hcc : s.consumer <;> rw [hcc] at hc <;> simp only [CGood] at hc <;>
        simp only [State.base, hcc, not_true_eq_false] at he hq <;> (subst he; omega)

/-- The place of a producer. -/
theorem place_good {cap p q : Nat} {e : E} (h : Inv cap s) (hp : (s.producers p).place = some (e, q)) :
    s.base ≤ q ∧ q < s.tail ∧ s.claims[q]? = some (p, e) ∧ s.seq (q % cap) = q := by
  have hg := h.prod p
  cases hx : s.producers p <;> rw [hx] at hp hg <;> simp only [PPc.place, Option.some.injEq, Prod.mk.injEq, reduceCtorEq] at hp
  · obtain ⟨rfl, rfl⟩ := hp; exact hg
  · obtain ⟨rfl, rfl⟩ := hp; exact hg
  · obtain ⟨rfl, rfl⟩ := hp; exact ⟨hg.1, hg.2.1, hg.2.2.1, hg.2.2.2.1⟩

/-- The place of a call that throws is lost. -/
theorem lost_fail {cap p q : Nat} {e : E} (h : Inv cap s) (hp : (s.producers p).place = some (e, q)) (x : Ev E) :
    Lost cap q ((s.go p .idle).say x) := by
  obtain ⟨h1, h2, h3, h4⟩ := place_good h hp
  refine ⟨head_le (s := s) h h1 h4, h2, h4, ?_⟩
  intro r e' hr
  simp only [State.say, State.go] at hr
  by_cases hrp : r = p
  · subst hrp; rw [upd_same] at hr; cases hr
  · rw [upd_ne _ _ hrp] at hr
    have := (place_good h hr).2.2.1
    rw [h3] at this
    cases this
    exact hrp rfl

theorem lost_same {cap q : Nat} {t : State E} (h : Lost cap q s) (h1 : t.seq = s.seq) (h2 : t.head = s.head)
    (h3 : t.tail = s.tail) (h4 : t.producers = s.producers) : Lost cap q t :=
  ⟨by rw [h2]; exact h.low, by rw [h3]; exact h.high, by rw [h1]; exact h.unfilled, by rw [h4]; exact h.nobody⟩

theorem lost_go {cap q : Nat} (h : Lost cap q s) {p : Nat} {x : PPc E}
    (hx : ∀ e, x.place = some (e, q) → (s.producers p).place = some (e, q)) : Lost cap q (s.go p x) := by
  refine ⟨h.low, h.high, h.unfilled, ?_⟩
  intro r e hr
  simp only [State.go] at hr
  by_cases hq : r = p
  · subst hq; rw [upd_same] at hr; exact h.nobody r e (hx e hr)
  · rw [upd_ne _ _ hq] at hr; exact h.nobody r e hr

theorem lost_step {k q : Nat} {c : Cmd E} (h : Inv (2 ^ k) s) (hl : Lost (2 ^ k) q s)
    (hs : s.step (2 ^ k) policy c = some s') : Lost (2 ^ k) q s' := by
  have hb := base_le h
  have hlow := hl.low
  have hhigh := hl.high
  have hunf := hl.unfilled
  cases c with
  | emit p e =>
    simp only [State.step] at hs
    split at hs
    · cases hs
      exact lost_same (lost_go hl (x := .start e) (fun _ h => nomatch h)) rfl rfl rfl rfl
    · cases hs
  | producer p b =>
    simp only [State.step, State.produce] at hs
    split at hs
    · cases hs
    · cases hs; exact lost_go hl (fun _ h => nomatch h)
    · cases hs; exact lost_go hl (fun _ h => nomatch h)
    · rename_i e pos n hp
      split at hs
      · split at hs
        · rename_i ht
          cases hs
          have : Lost (2 ^ k) q ({ s with tail := pos + 1, claims := s.claims ++ [(p, e)] }.go p (.claimed e pos)) := by
            refine lost_go (s := { s with tail := pos + 1, claims := s.claims ++ [(p, e)] }) ?_ ?_
            · exact ⟨hlow, by simp only; omega, hunf, hl.nobody⟩
            · intro e' he
              simp only [PPc.place, Option.some.injEq, Prod.mk.injEq] at he
              omega
          exact lost_same this rfl rfl rfl rfl
        · cases hs; exact lost_go hl (fun _ h => nomatch h)
      · split at hs
        · cases hs; exact lost_go hl (fun _ h => nomatch h)
        · cases hs; exact lost_go hl (fun _ h => nomatch h)
    · cases hs
      refine lost_go hl ?_
      intro e' he
      split at he <;> cases he
    · split at hs
      · cases hs; exact lost_go hl (fun _ h => nomatch h)
      · cases hs
        exact lost_same (lost_go hl (x := .idle) (fun _ h => nomatch h)) rfl rfl rfl rfl
    · rename_i e pos hp
      cases hs
      exact lost_go (s := { s with data := upd s.data (cell (2 ^ k) pos) none }) (lost_same hl rfl rfl rfl rfl)
        (fun e' he => by simp only [hp]; exact he)
    · rename_i e pos hp
      cases hs
      exact lost_go (s := { s with data := upd s.data (cell (2 ^ k) pos) (some (p, e)) }) (lost_same hl rfl rfl rfl rfl)
        (fun e' he => by simp only [hp]; exact he)
    · rename_i e pos hp
      cases hs
      have hg := h.prod p
      rw [hp] at hg
      obtain ⟨g1, g2, g3, g4, g5⟩ := hg
      have hne : q ≠ pos := by
        rintro rfl
        exact hl.nobody p e (by rw [hp]; rfl)
      have : Lost (2 ^ k) q ({ s with seq := upd s.seq (cell (2 ^ k) pos) (pos + 1) }.go p .idle) := by
        refine lost_go (s := { s with seq := upd s.seq (cell (2 ^ k) pos) (pos + 1) }) ?_ (fun _ h => nomatch h)
        refine ⟨hlow, hhigh, ?_, hl.nobody⟩
        simp only [cell_eq]
        rw [upd_ne _ _ (apart h (by omega) hhigh g1 g2 hne)]
        exact hunf
      exact lost_same this rfl rfl rfl rfl
  | throws p =>
    simp only [State.step, State.fail] at hs
    split at hs
    · cases hs; exact lost_same (lost_go hl (x := .idle) (fun _ h => nomatch h)) rfl rfl rfl rfl
    · cases hs; exact lost_same (lost_go hl (x := .idle) (fun _ h => nomatch h)) rfl rfl rfl rfl
    · cases hs
  | consumer b =>
    have hg := h.cons
    simp only [State.step, State.consume] at hs
    split at hs
    · cases hs; exact lost_same hl rfl rfl rfl rfl
    · cases hs; exact lost_same hl rfl rfl rfl rfl
    · rename_i pos n hcc
      rw [hcc] at hg
      split at hs
      · rename_i hn
        split at hs
        · rename_i ht
          cases hs
          have hsq := hg.2 hn
          have : q ≠ pos := by
            rintro rfl
            omega
          exact ⟨by simp only; omega, hhigh, hunf, hl.nobody⟩
        · cases hs; exact lost_same hl rfl rfl rfl rfl
      · split at hs
        · cases hs; exact lost_same hl rfl rfl rfl rfl
        · cases hs; exact lost_same hl rfl rfl rfl rfl
    · cases hs; exact lost_same hl rfl rfl rfl rfl
    · cases hs; exact lost_same hl rfl rfl rfl rfl
    · split at hs
      · cases hs; exact lost_same hl rfl rfl rfl rfl
      · cases hs; exact lost_same hl rfl rfl rfl rfl
    · rename_i pos x hcc
      cases hs
      rw [hcc] at hg
      obtain ⟨g1, g2, g3⟩ := hg
      have hbs : s.base = pos := by rw [State.base, hcc]
      refine ⟨hlow, hhigh, ?_, hl.nobody⟩
      simp only [cell_eq]
      rw [upd_ne _ _ (apart h (by omega) hhigh (q' := pos) (by omega) (by omega) (by omega))]
      exact hunf
    · split at hs
      · cases hs; exact lost_same hl rfl rfl rfl rfl
      · cases hs; exact lost_same hl rfl rfl rfl rfl
    · cases hs; exact lost_same hl rfl rfl rfl rfl
    · cases hs; exact lost_same hl rfl rfl rfl rfl
    · cases hs; exact lost_same hl rfl rfl rfl rfl
    · cases hs
    · cases hs
    · cases hs
  | consumerThrows =>
    simp only [State.step] at hs
    split at hs
    · cases hs; exact lost_same hl rfl rfl rfl rfl
    · cases hs
  | stop =>
    simp only [State.step] at hs
    split at hs
    · cases hs
    · cases hs; exact lost_same hl rfl rfl rfl rfl
  | join =>
    simp only [State.step] at hs
    split at hs
    · cases hs; exact lost_same hl rfl rfl rfl rfl
    · cases hs

/-- The worker has not found the queue empty just now, and has not ended. -/
def CPc.unaware : CPc E → Bool
  | .got none => false
  | .exited => false
  | _ => true

theorem unaware_step {k q : Nat} {c : Cmd E} (h : Inv (2 ^ k) s) (hl : Lost (2 ^ k) q s) (hu : s.consumer.unaware = true)
    (hs : s.step (2 ^ k) policy c = some s') : s'.consumer.unaware = true := by
  have hlow := hl.low
  have hhigh := hl.high
  have hg := h.cons
  cases c with
  | consumer b =>
    simp only [State.step, State.consume] at hs
    split at hs
    · cases hs; rfl
    · cases hs; rfl
    · (repeat' split at hs) <;> cases hs <;> rfl
    · rename_i pos hc
      cases hs
      rw [hc] at hg
      have hg : pos = s.head := hg
      rw [if_neg (by omega)]
      rfl
    · cases hs; rfl
    · split at hs <;> cases hs <;> rfl
    · cases hs; rfl
    · rename_i hc
      rw [hc] at hu
      cases hu
    · cases hs; rfl
    · cases hs; rfl
    · cases hs; rfl
    · cases hs
    · cases hs
    · cases hs
  | emit p e => simp only [State.step] at hs; split at hs <;> cases hs; exact hu
  | producer p b =>
    simp only [State.step, State.produce] at hs
    (repeat' split at hs) <;> first | (cases hs; done) | (cases hs; exact hu)
  | throws p => simp only [State.step, State.fail] at hs; split at hs <;> cases hs <;> exact hu
  | consumerThrows => simp only [State.step] at hs; split at hs <;> cases hs; rfl
  | stop => simp only [State.step] at hs; split at hs <;> cases hs; exact hu
  | join => simp only [State.step] at hs; split at hs <;> cases hs; exact hu

theorem lost_run {k q : Nat} {cs : List (Cmd E)} (hk : 1 ≤ k) (h : Inv (2 ^ k) s) (hl : Lost (2 ^ k) q s)
    (hs : s.run (2 ^ k) policy cs = some s') :
    Lost (2 ^ k) q s' ∧ (s.consumer.unaware = true → s'.consumer.unaware = true) := by
  induction cs generalizing s with
  | nil => cases hs; exact ⟨hl, id⟩
  | cons c cs ih =>
    simp only [State.run, Option.bind_eq_some_iff] at hs
    obtain ⟨m, h1, h2⟩ := hs
    obtain ⟨a, b⟩ := ih (inv_step hk h h1) (lost_step h hl h1) h2
    exact ⟨a, fun hu => b (unaware_step h hl hu h1)⟩

theorem destroyed_step {cap : Nat} {c : Cmd E} (h : Ev.destroyed ∈ s.trace → s.consumer = .exited)
    (hs : s.step cap policy c = some s') : Ev.destroyed ∈ s'.trace → s'.consumer = .exited := by
  cases c with
  | consumer b =>
    by_cases hd : Ev.destroyed ∈ s.trace
    · simp [State.step, State.consume, h hd] at hs
    · simp only [State.step, State.consume] at hs
      (repeat' split at hs) <;> first
        | (cases hs; done)
        | (cases hs; intro hm; exact absurd (by simpa [State.say] using hm) hd)
  | emit p e => simp only [State.step] at hs; split at hs <;> cases hs; intro hm; exact h (by simpa [State.say, State.go] using hm)
  | producer p b =>
    simp only [State.step, State.produce] at hs
    (repeat' split at hs) <;> first
      | (cases hs; done) | (cases hs; intro hm; exact h (by simpa [State.say, State.go] using hm))
  | throws p =>
    simp only [State.step, State.fail] at hs
    split at hs <;> cases hs <;> (intro hm; exact h (by simpa [State.say, State.go] using hm))
  | consumerThrows =>
    simp only [State.step] at hs
    split at hs <;> cases hs
    rename_i hc
    intro hm
    have := h (by simpa [State.say] using hm)
    rw [this] at hc
    cases hc
  | stop => simp only [State.step] at hs; split at hs <;> cases hs; intro hm; exact h (by simpa [State.say, State.go] using hm)
  | join =>
    simp only [State.step] at hs
    split at hs <;> cases hs
    rename_i hc
    exact fun _ => hc

theorem destroyed_run {cap : Nat} {cs : List (Cmd E)} (h : Ev.destroyed ∈ s.trace → s.consumer = .exited)
    (hs : s.run cap policy cs = some s') : Ev.destroyed ∈ s'.trace → s'.consumer = .exited := by
  induction cs generalizing s with
  | nil => cases hs; exact h
  | cons c cs ih =>
    simp only [State.run, Option.bind_eq_some_iff] at hs
    obtain ⟨m, h1, h2⟩ := hs
    exact ih (destroyed_step h h1) h2

end Blackhole.Ring
