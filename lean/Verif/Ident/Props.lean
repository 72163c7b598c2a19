import Verif.Ident.Model
import Verif.Config.Props

/-! # Properties of the identity of syslog sinks: C102 -/

namespace Blackhole.Ident

/-! ## Specification -/

/-- The sinks that are alive after one more operation. -/
def Op.alive (a : Nat → Bool) : Op → Nat → Bool
  | .construct i => fun x => x = i || a x
  | .move _ dst => fun x => x = dst || a x
  | .destroy i => fun x => x ≠ i && a x
  | _ => a

/-- What a program may do: use sinks that are alive, and make sinks that are not. -/
def Op.Proper (a : Nat → Bool) : Op → Prop
  | .construct i => a i = false
  | .move src dst => a src = true ∧ a dst = false
  | .assign src dst => a src = true ∧ a dst = true
  | .destroy i => a i = true
  | .emit i => a i = true

/-- The same for a history. -/
def Proper (a : Nat → Bool) : List Op → Prop
  | [] => True
  | op :: ops => op.Proper a ∧ Proper (op.alive a) ops

/-- The operations after which the identity of sink `i`, which was constructed last, is still in force: messages; moves
to new sinks, of sink `i` only if the name is long; with a short name also assignments between other sinks. -/
def Op.Keeps (name : Str) (i : Nat) : Op → Prop
  | .emit _ => True
  | .move src _ => 15 < name.length ∨ src ≠ i
  | .assign src dst => name.length ≤ 15 ∧ src ≠ i ∧ dst ≠ i
  | .destroy _ => False
  | .construct _ => False

/-- Histories in which sinks are only made by the factory, as programs that use the installed headers do. -/
inductive Made : List Op → Prop
  | nil : Made []
  | made (i j : Nat) {ops : List Op} : Made ops → Made (ops ++ factoryOps i j)
  | refused (i : Nat) {ops : List Op} : Made ops → Made (ops ++ refusedOps i)
  | emit (i : Nat) {ops : List Op} : Made ops → Made (ops ++ [.emit i])
  | destroy (i : Nat) {ops : List Op} : Made ops → Made (ops ++ [.destroy i])

/-! ## Lemmas -/

/-- The texts that occur. -/
def Known (name t : Str) : Prop := t = name ∨ t = []

/-- What holds in all states. -/
structure Inv (name : Str) (a : Nat → Bool) (s : St) : Prop where
  alive : ∀ i, (s.sinks i).isSome = a i
  short : name.length ≤ 15 → ∀ i b, s.sinks i ≠ some (.long b)
  text : ∀ i t, s.sinks i = some (.short t) → Known name t
  heap : ∀ b t, s.heap b = some t → Known name t
  owned : ∀ i b, s.sinks i = some (.long b) → s.heap b ≠ none
  fresh : ∀ b, s.heap b ≠ none → b < s.next
  inj : ∀ i j b, s.sinks i = some (.long b) → s.sinks j = some (.long b) → i = j
  object : ∀ i, s.tag = some (.object i) → name.length ≤ 15 ∧ a i = true
  buffer : ∀ b, s.tag = some (.buffer b) → s.heap b ≠ none
  sent : ∀ m ∈ s.sent, m.2 = none ∨ m.2 = some name ∨ m.2 = some []

theorem Inv.init (name : Str) : Inv name (fun _ => false) St.init := by
  constructor <;> simp [St.init]

theorem put_same {α : Type} (m : Nat → Option α) (k : Nat) (v : Option α) : put m k v k = v := by simp [put]

theorem put_other {α : Type} (m : Nat → Option α) (k : Nat) (v : Option α) {x : Nat} (h : x ≠ k) : put m k v x = m x := by
  simp [put, h]

theorem cstr_known {name t : Str} (hn : '\x00' ∉ name) (h : Known name t) : Config.cstr t = t := by
  rcases h with rfl | rfl
  · exact Config.cstr_plain hn
  · rfl

theorem Inv.step {name : Str} (hn : '\x00' ∉ name) {a : Nat → Bool} {s : St} (h : Inv name a s) (op : Op)
    (hp : op.Proper a) : ∃ s', s.step name op = .ok s' ∧ Inv name (op.alive a) s' := by
  have known_name : Known name name := .inl rfl
  have known_nil : Known name [] := .inr rfl
  cases op with
  | construct i =>
    have hi : s.sinks i = none := by
      have := h.alive i
      simp only [Op.Proper] at hp
      rw [hp] at this
      simpa using this
    by_cases hl : name.length ≤ 15
    · refine ⟨_, by simp only [St.step]; rw [if_pos hl], ?_⟩
      obtain ⟨h1, h2, h3, h4, h5, h6, h7, h8, h9, h10⟩ := h
      constructor <;> simp only [Op.alive, put, Ident.ptr] <;> grind
    · refine ⟨_, by simp only [St.step]; rw [if_neg hl], ?_⟩
      obtain ⟨h1, h2, h3, h4, h5, h6, h7, h8, h9, h10⟩ := h
      constructor <;> simp only [Op.alive, put, Ident.ptr] <;> grind
  | move src dst =>
    obtain ⟨hs, hd⟩ := hp
    cases e : s.sinks src with
    | none => have := h.alive src; rw [e, hs] at this; simp at this
    | some id =>
      refine ⟨_, by simp only [St.step]; rw [e], ?_⟩
      have hne : src ≠ dst := by intro hc; rw [hc, hd] at hs; cases hs
      obtain ⟨h1, h2, h3, h4, h5, h6, h7, h8, h9, h10⟩ := h
      constructor <;> simp only [Op.alive, put] <;> grind
  | assign src dst =>
    obtain ⟨hs, hd⟩ := hp
    have hs' : s.sinks src ≠ none := by
      intro hc; have := h.alive src; rw [hc, hs] at this; simp at this
    have hd' : s.sinks dst ≠ none := by
      intro hc; have := h.alive dst; rw [hc, hd] at this; simp at this
    obtain ⟨x, hx⟩ := Option.ne_none_iff_exists'.1 hs'
    obtain ⟨y, hy⟩ := Option.ne_none_iff_exists'.1 hd'
    have ht : ∃ s', s.take src dst = .ok s' ∧ Inv name a s' := by
      cases x with
      | short t =>
        have hk := h.text _ _ hx
        cases y with
        | short u =>
          refine ⟨_, by simp only [St.take, hx, hy]; rfl, ?_⟩
          obtain ⟨h1, h2, h3, h4, h5, h6, h7, h8, h9, h10⟩ := h
          constructor <;> simp only [put] <;> grind
        | long b =>
          obtain ⟨u, hu⟩ := Option.ne_none_iff_exists'.1 (h.owned _ _ hy)
          refine ⟨_, by simp only [St.take, hx, hy, hu]; rfl, ?_⟩
          obtain ⟨h1, h2, h3, h4, h5, h6, h7, h8, h9, h10⟩ := h
          constructor <;> simp only [put] <;> grind
      | long b =>
        have hl : ¬ name.length ≤ 15 := fun hl => h.short hl _ _ hx
        cases y with
        | short u =>
          have hne : src ≠ dst := by rintro rfl; rw [hx] at hy; cases hy
          refine ⟨_, by simp only [St.take, hx, hy]; rfl, ?_⟩
          obtain ⟨h1, h2, h3, h4, h5, h6, h7, h8, h9, h10⟩ := h
          constructor <;> simp only [put] <;> grind
        | long b' =>
          refine ⟨_, by simp only [St.take, hx, hy]; rfl, ?_⟩
          obtain ⟨h1, h2, h3, h4, h5, h6, h7, h8, h9, h10⟩ := h
          constructor <;> simp only [put] <;> grind
    obtain ⟨s1, ht, h⟩ := ht
    have hs1 : s1.sinks src ≠ none := by
      intro hc; have := h.alive src; rw [hc, hs] at this; simp at this
    obtain ⟨x, hx⟩ := Option.ne_none_iff_exists'.1 hs1
    simp only [St.step, ht, Except.bind]
    cases x with
    | short t =>
      refine ⟨_, by simp only [St.clear, hx]; rfl, ?_⟩
      obtain ⟨h1, h2, h3, h4, h5, h6, h7, h8, h9, h10⟩ := h
      constructor <;> simp only [put, Op.alive] <;> grind
    | long b =>
      obtain ⟨u, hu⟩ := Option.ne_none_iff_exists'.1 (h.owned _ _ hx)
      refine ⟨_, by simp only [St.clear, hx, hu]; rfl, ?_⟩
      obtain ⟨h1, h2, h3, h4, h5, h6, h7, h8, h9, h10⟩ := h
      constructor <;> simp only [put, Op.alive] <;> grind
  | destroy i =>
    cases e : s.sinks i with
    | none => have := h.alive i; rw [e] at this; simp only [Op.Proper] at hp; rw [hp] at this; simp at this
    | some id =>
      cases id with
      | short t =>
        refine ⟨_, by simp only [St.step]; rw [e], ?_⟩
        obtain ⟨h1, h2, h3, h4, h5, h6, h7, h8, h9, h10⟩ := h
        constructor <;> simp only [Op.alive, put] <;> grind
      | long b =>
        obtain ⟨t, ht⟩ := Option.ne_none_iff_exists'.1 (h.owned i b e)
        refine ⟨_, by simp only [St.step]; rw [e]; simp only [ht]; rfl, ?_⟩
        obtain ⟨h1, h2, h3, h4, h5, h6, h7, h8, h9, h10⟩ := h
        constructor <;> simp only [Op.alive, put] <;> grind
  | emit i =>
    cases e : s.tag with
    | none =>
      refine ⟨_, by simp only [St.step]; rw [e], ?_⟩
      obtain ⟨h1, h2, h3, h4, h5, h6, h7, h8, h9, h10⟩ := h
      constructor <;> simp only [Op.alive] <;> grind
    | some p =>
      have hr : ∃ t, s.read p = .ok t ∧ Known name t := by
        cases p with
        | object j =>
          obtain ⟨hl, hj⟩ := h.object j e
          have := h.alive j
          rw [hj] at this
          cases ej : s.sinks j with
          | none => rw [ej] at this; simp at this
          | some id =>
            cases id with
            | short t => exact ⟨t, by simp only [St.read, ej, cstr_known hn (h.text j t ej)], h.text j t ej⟩
            | long b => exact absurd ej (h.short hl j b)
        | buffer b =>
          obtain ⟨t, ht⟩ := Option.ne_none_iff_exists'.1 (h.buffer b e)
          exact ⟨t, by simp only [St.read, ht, cstr_known hn (h.heap b t ht)], h.heap b t ht⟩
      obtain ⟨t, ht, hk⟩ := hr
      refine ⟨_, by simp only [St.step]; rw [e]; simp only [ht]; rfl, ?_⟩
      unfold Known at *
      obtain ⟨h1, h2, h3, h4, h5, h6, h7, h8, h9, h10⟩ := h
      constructor <;> simp only [Op.alive] <;> grind

theorem run_append (name : Str) : ∀ (ops ops' : List Op) (s : St),
    s.run name (ops ++ ops') = (s.run name ops).bind (·.run name ops')
  | [], ops', s => rfl
  | op :: ops, ops', s => by
    simp only [List.cons_append, St.run]
    cases s.step name op with
    | error e => rfl
    | ok s' => exact run_append name ops ops' s'

/-- The sinks that are alive after a history. -/
def aliveAfter (a : Nat → Bool) : List Op → Nat → Bool
  | [] => a
  | op :: ops => aliveAfter (op.alive a) ops

theorem Proper.append {ops ops' : List Op} : ∀ {a : Nat → Bool}, Proper a (ops ++ ops') →
    Proper a ops ∧ Proper (aliveAfter a ops) ops' := by
  induction ops with
  | nil => exact fun h => ⟨trivial, h⟩
  | cons op ops ih => exact fun h => ⟨⟨h.1, (ih h.2).1⟩, (ih h.2).2⟩

theorem Inv.run {name : Str} (hn : '\x00' ∉ name) : ∀ {ops : List Op} {a : Nat → Bool} {s : St}, Inv name a s →
    Proper a ops → ∃ s', s.run name ops = .ok s' ∧ Inv name (aliveAfter a ops) s'
  | [], a, s, h, _ => ⟨s, rfl, h⟩
  | op :: ops, a, s, h, hp => by
    obtain ⟨s1, e, h1⟩ := h.step hn op hp.1
    obtain ⟨s2, e2, h2⟩ := h1.run hn hp.2
    exact ⟨s2, by simp only [St.run, e]; exact e2, h2⟩

/-- The identity of sink `i` is in force. -/
def Holds (name : Str) (i : Nat) (s : St) : Prop :=
  (name.length ≤ 15 ∧ s.tag = some (.object i) ∧ s.sinks i = some (.short name))
  ∨ (15 < name.length ∧ ∃ b, s.tag = some (.buffer b) ∧ s.heap b = some name)

theorem Holds.step {name : Str} {i : Nat} {a : Nat → Bool} {s s' : St} (inv : Inv name a s) (h : Holds name i s)
    (op : Op) (hp : op.Proper a) (hk : op.Keeps name i) (e : s.step name op = .ok s') : Holds name i s' := by
  cases op with
  | construct _ => exact hk.elim
  | destroy _ => exact hk.elim
  | emit j =>
    simp only [St.step] at e
    cases ht : s.tag with
    | none => rcases h with ⟨_, h, _⟩ | ⟨_, b, h, _⟩ <;> rw [ht] at h <;> cases h
    | some p =>
      rw [ht] at e
      simp only at e
      cases hr : s.read p with
      | error x => rw [hr] at e; cases e
      | ok t =>
        rw [hr] at e
        simp only [Except.map, Except.ok.injEq] at e
        subst e
        unfold Holds at h ⊢
        rw [ht] at h
        exact h
  | move src dst =>
    simp only [St.step] at e
    cases hs : s.sinks src with
    | none => rw [hs] at e; cases e
    | some id =>
      rw [hs] at e
      simp only [Except.ok.injEq] at e
      subst e
      rcases h with ⟨hl, h1, h2⟩ | ⟨hl, h⟩
      · left
        have h3 : src ≠ i := hk.resolve_left (by omega)
        have h4 : dst ≠ i := by
          rintro rfl
          have := inv.alive dst
          rw [h2, hp.2] at this
          cases this
        refine ⟨hl, h1, ?_⟩
        show put (put s.sinks dst (some id)) src (some (Ident.short [])) i = _
        rw [put_other _ _ _ h3.symm, put_other _ _ _ h4.symm, h2]
      · exact .inr ⟨hl, h⟩
  | assign src dst =>
    obtain ⟨hl, h3, h4⟩ := hk
    rcases h with ⟨_, h1, h2⟩ | ⟨h, _⟩
    · left
      refine ⟨hl, ?_⟩
      simp only [St.step] at e
      have hshort := inv.short hl
      unfold St.take at e
      split at e
      · rename_i t u hs hd
        simp only [Except.bind, St.clear] at e
        split at e
        · simp only [Except.ok.injEq] at e
          subst e
          refine ⟨h1, ?_⟩
          show put (put s.sinks dst _) src _ i = _
          rw [put_other _ _ _ h3.symm, put_other _ _ _ h4.symm, h2]
        · rename_i b hb
          simp only [put] at hb
          split at hb
          · cases hb
          · exact absurd hb (hshort _ _)
        · cases e
      · rename_i hs hd
        exact absurd hd (hshort _ _)
      · rename_i hs hd
        exact absurd hs (hshort _ _)
      · rename_i hs hd
        exact absurd hs (hshort _ _)
      · cases e
    · omega

theorem Holds.run {name : Str} (hn : '\x00' ∉ name) {i : Nat} : ∀ {ops : List Op} {a : Nat → Bool} {s s' : St},
    Inv name a s → Holds name i s → Proper a ops → (∀ op ∈ ops, op.Keeps name i) → s.run name ops = .ok s' → Holds name i s'
  | [], a, s, s', _, h, _, _, e => by cases e; exact h
  | op :: ops, a, s, s', inv, h, hp, hk, e => by
    obtain ⟨s1, e1, inv1⟩ := inv.step hn op hp.1
    simp only [St.run, e1, Except.bind] at e
    exact (h.step inv op hp.1 (hk op (by simp)) e1).run hn inv1 hp.2 (fun o ho => hk o (by simp [ho])) e

theorem Holds.read {name : Str} (hn : '\x00' ∉ name) {i : Nat} {s : St} (h : Holds name i s) :
    ∃ p, s.tag = some p ∧ s.read p = .ok name := by
  rcases h with ⟨_, h1, h2⟩ | ⟨_, b, h1, h2⟩
  · exact ⟨_, h1, by simp only [St.read, h2, Config.cstr_plain hn]⟩
  · exact ⟨_, h1, by simp only [St.read, h2, Config.cstr_plain hn]⟩

theorem Holds.construct (name : Str) (i : Nat) (s : St) : ∃ s', s.step name (.construct i) = .ok s' ∧ Holds name i s' := by
  by_cases hl : name.length ≤ 15
  · refine ⟨_, by simp only [St.step]; rw [if_pos hl], .inl ⟨hl, rfl, put_same _ _ _⟩⟩
  · refine ⟨_, by simp only [St.step]; rw [if_neg hl], .inr ⟨by omega, _, rfl, put_same _ _ _⟩⟩

theorem step_tag {name : Str} {s s' : St} {op : Op} (h : s.tag = none) (hc : ∀ i, op ≠ .construct i)
    (e : s.step name op = .ok s') : s'.tag = none := by
  cases op with
  | construct i => exact absurd rfl (hc i)
  | move src dst => simp only [St.step] at e; split at e <;> cases e; exact h
  | destroy i =>
    simp only [St.step] at e
    split at e
    · cases e; rfl
    · split at e <;> cases e; rfl
    · cases e
  | emit i => simp only [St.step, h] at e; cases e; rfl
  | assign src dst =>
    simp only [St.step] at e
    cases ht : s.take src dst with
    | error x => rw [ht] at e; cases e
    | ok s1 =>
      rw [ht] at e
      simp only [Except.bind] at e
      have h1 : s1.tag = s.tag := by
        unfold St.take at ht
        split at ht
        · cases ht; rfl
        · split at ht <;> cases ht; rfl
        · cases ht; rfl
        · cases ht; rfl
        · cases ht
      unfold St.clear at e
      split at e
      · cases e; rw [← h, ← h1]
      · split at e <;> cases e; rw [← h, ← h1]
      · cases e

theorem run_tag {name : Str} : ∀ {ops : List Op} {s s' : St}, s.tag = none → (∀ i, .construct i ∉ ops) →
    s.run name ops = .ok s' → s'.tag = none
  | [], s, s', h, _, e => by cases e; exact h
  | op :: ops, s, s', h, hc, e => by
    simp only [St.run] at e
    cases h1 : s.step name op with
    | error x => rw [h1] at e; cases e
    | ok s1 =>
      rw [h1] at e
      exact run_tag (step_tag h (fun i hi => hc i (by simp [hi])) h1) (fun i hi => hc i (by simp [hi])) e

/-! ## C102 -/

/-- However sinks are constructed, moved, assigned, used and destroyed, the C library never reads memory that is gone,
nothing is freed twice, and what it reads is the name of the process or, after a move, the empty text. -/
theorem C102_alive (name : Str) (hn : '\x00' ∉ name) (ops : List Op) (hp : Proper (fun _ => false) ops) :
    ∃ s, St.init.run name ops = .ok s ∧ ∀ m ∈ s.sent, m.2 = none ∨ m.2 = some name ∨ m.2 = some [] := by
  obtain ⟨s, e, h⟩ := (Inv.init name).run hn hp
  exact ⟨s, e, h.sent⟩

/-- The identity of the sink that was constructed last is in force, until a sink is destroyed, for all messages,
whichever sink sends them, as long as the sinks that are moved or assigned do not take it away. -/
theorem C102_name (name : Str) (hn : '\x00' ∉ name) (before after : List Op) (i j : Nat)
    (hp : Proper (fun _ => false) (before ++ .construct i :: after ++ [.emit j]))
    (hk : ∀ op ∈ after, op.Keeps name i) :
    ∃ s sent, St.init.run name (before ++ .construct i :: after ++ [.emit j]) = .ok s
      ∧ s.sent = sent ++ [(j, some name)] := by
  have hp' : Proper (fun _ => false) (before ++ (.construct i :: (after ++ [.emit j]))) := by simpa using hp
  obtain ⟨hb, hc, hrest⟩ := hp'.append
  obtain ⟨s0, e0, inv0⟩ := (Inv.init name).run hn hb
  obtain ⟨s1, e1, inv1⟩ := inv0.step hn _ hc
  obtain ⟨s1', e1', hh⟩ := Holds.construct name i s0
  obtain rfl : s1 = s1' := by rw [e1] at e1'; cases e1'; rfl
  obtain ⟨ha, hlast⟩ := hrest.append
  obtain ⟨s2, e2, _⟩ := inv1.run hn ha
  obtain ⟨p, hp1, hp2⟩ := (hh.run hn inv1 ha hk e2).read hn
  refine ⟨{ s2 with sent := s2.sent ++ [(j, some name)] }, s2.sent, ?_, rfl⟩
  rw [List.append_assoc, run_append, e0]
  simp only [List.cons_append, Except.bind, St.run, e1]
  rw [run_append, e2]
  simp only [Except.bind, St.run, St.step, hp1, hp2, Except.map]

/-- After a destruction, of whatever sink, the C library uses a name of its own until the next construction. -/
theorem C102_closed (name : Str) (hn : '\x00' ∉ name) (before after : List Op) (i j : Nat)
    (hp : Proper (fun _ => false) (before ++ .destroy i :: after ++ [.emit j])) (hc : ∀ k, .construct k ∉ after) :
    ∃ s sent, St.init.run name (before ++ .destroy i :: after ++ [.emit j]) = .ok s ∧ s.sent = sent ++ [(j, none)] := by
  have hp' : Proper (fun _ => false) (before ++ (.destroy i :: (after ++ [.emit j]))) := by simpa using hp
  obtain ⟨hb, hd, hrest⟩ := hp'.append
  obtain ⟨s0, e0, inv0⟩ := (Inv.init name).run hn hb
  obtain ⟨s1, e1, inv1⟩ := inv0.step hn _ hd
  have ht : s1.tag = none := by
    simp only [St.step] at e1
    split at e1
    · cases e1; rfl
    · split at e1 <;> cases e1; rfl
    · cases e1
  obtain ⟨ha, hlast⟩ := hrest.append
  obtain ⟨s2, e2, _⟩ := inv1.run hn ha
  have ht2 := run_tag ht hc e2
  refine ⟨{ s2 with sent := s2.sent ++ [(j, none)] }, s2.sent, ?_, rfl⟩
  rw [List.append_assoc, run_append, e0]
  simp only [List.cons_append, Except.bind, St.run, e1]
  rw [run_append, e2]
  simp only [Except.bind, St.run, St.step, ht2]

/-- A sink that is moved while its short identity is in force leaves the characters behind: its messages have an empty
identity. -/
theorem C102_moved (name : Str) (hn : '\x00' ∉ name) (hl : name.length ≤ 15) (before : List Op) (i j : Nat)
    (hp : Proper (fun _ => false) (before ++ [.construct i, .move i j, .emit j])) :
    ∃ s sent, St.init.run name (before ++ [.construct i, .move i j, .emit j]) = .ok s
      ∧ s.sent = sent ++ [(j, some [])] := by
  obtain ⟨hb, hc, hm, _⟩ := hp.append
  obtain ⟨s0, e0, inv0⟩ := (Inv.init name).run hn hb
  rw [run_append, e0]
  refine ⟨⟨put (put (put s0.sinks i (some (.short name))) j (some (.short name))) i (some (.short [])), s0.heap, s0.next,
    some (.object i), s0.sent ++ [(j, some [])]⟩, s0.sent, ?_, rfl⟩
  simp only [Except.bind, St.run, St.step]
  rw [if_pos hl]
  simp only [put_same, St.read, Ident.ptr, Except.map]
  rfl

/-- Sinks made by the factory never have the identity that their constructor asked for: the messages of a program that
makes sinks through the registry all go out under a name of the C library's own. -/
theorem C102_factory (name : Str) (hn : '\x00' ∉ name) (ops : List Op) (hm : Made ops)
    (hp : Proper (fun _ => false) ops) :
    ∃ s, St.init.run name ops = .ok s ∧ ∀ m ∈ s.sent, m.2 = none := by
  have key : ∀ ops, Made ops → Proper (fun _ => false) ops →
      ∃ s, St.init.run name ops = .ok s ∧ Inv name (aliveAfter (fun _ => false) ops) s ∧ s.tag = none
        ∧ ∀ m ∈ s.sent, m.2 = none := by
    intro ops hm
    have sent_step : ∀ {s s' : St} {op : Op}, (∀ i, op ≠ .emit i) → s.step name op = .ok s' → s'.sent = s.sent := by
      intro s s' op hne e
      cases op with
      | emit i => exact absurd rfl (hne i)
      | construct i =>
        by_cases hl : name.length ≤ 15
        · simp only [St.step] at e; rw [if_pos hl] at e; cases e; rfl
        · simp only [St.step] at e; rw [if_neg hl] at e; cases e; rfl
      | move src dst => simp only [St.step] at e; split at e <;> cases e; rfl
      | destroy i =>
        simp only [St.step] at e
        split at e
        · cases e; rfl
        · split at e <;> cases e; rfl
        · cases e
      | assign src dst =>
        simp only [St.step] at e
        cases ht : s.take src dst with
        | error x => rw [ht] at e; cases e
        | ok s1 =>
          rw [ht] at e
          simp only [Except.bind] at e
          have h1 : s1.sent = s.sent := by
            unfold St.take at ht
            split at ht
            · cases ht; rfl
            · split at ht <;> cases ht; rfl
            · cases ht; rfl
            · cases ht; rfl
            · cases ht
          unfold St.clear at e
          split at e
          · cases e; exact h1
          · split at e <;> cases e; exact h1
          · cases e
    have destroyed : ∀ {s s' : St} {i : Nat}, s.step name (.destroy i) = .ok s' → s'.tag = none := by
      intro s s' i e
      simp only [St.step] at e
      split at e
      · cases e; rfl
      · split at e <;> cases e; rfl
      · cases e
    induction hm with
    | nil => exact fun _ => ⟨_, rfl, Inv.init name, rfl, by simp [St.init]⟩
    | @made i j ops _ ih =>
      intro hp
      obtain ⟨h1, h2⟩ := hp.append
      obtain ⟨s, e, inv, ht, hs⟩ := ih h1
      obtain ⟨s1, e1, inv1⟩ := inv.step hn _ h2.1
      obtain ⟨s2, e2, inv2⟩ := inv1.step hn _ h2.2.1
      obtain ⟨s3, e3, inv3⟩ := inv2.step hn _ h2.2.2.1
      have er : St.init.run name (ops ++ factoryOps i j) = .ok s3 := by
        rw [run_append, e]
        simp only [factoryOps, Except.bind, St.run, e1, e2, e3]
      obtain ⟨s', e', inv'⟩ := (Inv.init name).run hn hp
      obtain rfl : s' = s3 := by rw [e'] at er; cases er; rfl
      refine ⟨s', er, inv', destroyed e3, ?_⟩
      rw [sent_step (by simp) e3, sent_step (by simp) e2, sent_step (by simp) e1]
      exact hs
    | @refused i ops _ ih =>
      intro hp
      obtain ⟨h1, h2⟩ := hp.append
      obtain ⟨s, e, inv, ht, hs⟩ := ih h1
      obtain ⟨s1, e1, inv1⟩ := inv.step hn _ h2.1
      obtain ⟨s2, e2, inv2⟩ := inv1.step hn _ h2.2.1
      have er : St.init.run name (ops ++ refusedOps i) = .ok s2 := by
        rw [run_append, e]
        simp only [refusedOps, Except.bind, St.run, e1, e2]
      obtain ⟨s', e', inv'⟩ := (Inv.init name).run hn hp
      obtain rfl : s' = s2 := by rw [e'] at er; cases er; rfl
      refine ⟨s', er, inv', destroyed e2, ?_⟩
      rw [sent_step (by simp) e2, sent_step (by simp) e1]
      exact hs
    | @emit i ops _ ih =>
      intro hp
      obtain ⟨h1, h2⟩ := hp.append
      obtain ⟨s, e, inv, ht, hs⟩ := ih h1
      have er : St.init.run name (ops ++ [.emit i]) = .ok { s with sent := s.sent ++ [(i, none)] } := by
        rw [run_append, e]
        simp only [Except.bind, St.run, St.step, ht]
      obtain ⟨s', e', inv'⟩ := (Inv.init name).run hn hp
      rw [e'] at er
      simp only [Except.ok.injEq] at er
      subst er
      refine ⟨_, e', inv', ht, ?_⟩
      intro m hm
      rcases List.mem_append.1 hm with hm | hm
      · exact hs m hm
      · simp only [List.mem_singleton] at hm
        rw [hm]
    | @destroy i ops _ ih =>
      intro hp
      obtain ⟨h1, h2⟩ := hp.append
      obtain ⟨s, e, inv, ht, hs⟩ := ih h1
      obtain ⟨s1, e1, inv1⟩ := inv.step hn _ h2.1
      have er : St.init.run name (ops ++ [.destroy i]) = .ok s1 := by
        rw [run_append, e]
        simp only [Except.bind, St.run, e1]
      obtain ⟨s', e', inv'⟩ := (Inv.init name).run hn hp
      obtain rfl : s' = s1 := by rw [e'] at er; cases er; rfl
      refine ⟨s', er, inv', destroyed e1, ?_⟩
      rw [sent_step (by simp) e1]
      exact hs
  obtain ⟨s, e, _, _, h⟩ := key ops hm hp
  exact ⟨s, e, h⟩

/-! ## The hypotheses can be met -/

example : ∃ s, St.init.run (ch! "server") [.construct 0, .emit 0, .construct 1, .move 1 2, .emit 2, .destroy 1, .emit 0] = .ok s
    ∧ s.sent = [(0, some (ch! "server")), (2, some []), (0, none)] := ⟨_, rfl, rfl⟩

example : ∃ s, St.init.run (ch! "a-rather-long-name") [.construct 0, .move 0 1, .emit 1, .construct 2, .assign 1 2, .emit 2] = .ok s
    ∧ s.sent = [(1, some (ch! "a-rather-long-name")), (2, some [])] := ⟨_, rfl, rfl⟩

example : Proper (fun _ => false) ([] ++ .construct 0 :: [.emit 0, .move 0 1, .emit 1] ++ [.emit 1])
    ∧ ∀ op ∈ [Op.emit 0, .move 0 1, .emit 1], op.Keeps (ch! "a-rather-long-name") 0 := by
  constructor
  · simp [Proper, Op.Proper, Op.alive]
  · simp [Op.Keeps]

example : Made (factoryOps 0 1 ++ [.emit 1] ++ factoryOps 2 3 ++ [.destroy 1] ++ [.emit 3])
    ∧ Proper (fun _ => false) (factoryOps 0 1 ++ [.emit 1] ++ factoryOps 2 3 ++ [.destroy 1] ++ [.emit 3]) := by
  constructor
  · exact .emit 3 (.destroy 1 (.made 2 3 (.emit 1 (.made 0 1 .nil))))
  · simp [Proper, factoryOps, Op.Proper, Op.alive]

end Blackhole.Ident
