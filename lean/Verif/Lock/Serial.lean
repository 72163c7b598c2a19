import Verif.Lock.Text

/-! # Threads that make emits of one kind under one mutex -/

namespace Blackhole.Lock

variable {α R : Type}

/-- The emits that are finished, in order: their threads and whether they ended by an exception. -/
def State.emitted (s : State Unit Unit α R) : List (Nat × α × Bool) := s.done.map fun d => (d.1, d.2.1.what, d.2.2)

/-- An object after emits, one after the other. -/
def serial (mk : α → Op Unit Unit α R) (init : R) (emitted : List (Nat × α × Bool)) : R :=
  emitted.foldl (fun r x => (mk x.2.1).apply r) init

theorem serial_snoc (mk : α → Op Unit Unit α R) (init : R) (l : List (Nat × α × Bool)) (x : Nat × α × Bool) :
    serial mk init (l ++ [x]) = (mk x.2.1).apply (serial mk init l) := by simp [serial]

theorem after_serial (mk : α → Op Unit Unit α R) (hw : ∀ a, (mk a).what = a) (init : R)
    (done : List (Nat × Op Unit Unit α R × Bool)) (h : ∀ d ∈ done, ∃ a, d.2.1 = mk a) :
    after () done init = serial mk init (done.map fun d => (d.1, d.2.1.what, d.2.2)) := by
  induction done using snoc_induction with
  | nil => rfl
  | snoc done d ih =>
    obtain ⟨a, e⟩ := h d (by simp)
    rw [after_snoc, if_pos rfl, ih fun x hx => h x (by simp [hx]), List.map_append, List.map_cons, List.map_nil, serial_snoc]
    simp only [e, hw]

/-- A step leaves the object alone or does the next action of a thread. -/
theorem step_res (s : State Unit Unit α R) (t : Nat) : (s.step t).res () = s.res ()
    ∨ ∃ x ops groups f fs, (s.threads t).todo = (x :: ops) :: groups ∧ (s.threads t).doing = some (f :: fs)
        ∧ (s.step t).res () = f (s.res ()) := by
  unfold State.step
  split
  · exact .inl rfl
  · exact .inl rfl
  · rename_i op ops groups htodo
    split
    · split
      · exact .inl rfl
      · exact .inl rfl
    · rename_i f fs hdoing
      exact .inr ⟨op, ops, groups, f, fs, htodo, hdoing, by simp [upd]⟩
    · exact .inl rfl

/-- Under one mutex the object is as if the finished emits had been done one after the other and then a beginning of at
most one more. -/
theorem one_by_one (mk : α → Op Unit Unit α R) (hw : ∀ a, (mk a).what = a) (hl : ∀ a, (mk a).lock = some ()) (init : R)
    (n : Nat) (programs : Nat → List α) (hn : ∀ t, n ≤ t → programs t = []) (schedule : List Nat)
    (s : State Unit Unit α R)
    (hs : s = (State.init (fun t => (programs t).map fun a => [(mk a).alone]) (fun _ => init)).run schedule) :
    (∀ t, (byThread t s.emitted).map (·.1) <+: programs t)
      ∧ (∀ before x later, s.emitted = before ++ x :: later → x.2.2 = (mk x.2.1).failed (serial mk init (before ++ [x])))
      ∧ (s.res () = serial mk init s.emitted
          ∨ ∃ t a past rest, (byThread t s.emitted).map (·.1) ++ [a] <+: programs t ∧ (mk a).steps = past ++ rest
              ∧ s.res () = past.foldl (fun r f => f r) (serial mk init s.emitted))
      ∧ (s.finished → s.res () = serial mk init s.emitted ∧ ∀ t, (byThread t s.emitted).map (·.1) = programs t) := by
  subst hs
  generalize hP : (fun t => (programs t).map fun a => [(mk a).alone]) = P
  have hPt : ∀ t, P t = (programs t).map fun a => [(mk a).alone] := by
    intro t; rw [← hP]
  have hocc : ∀ op, Occurs P op → ∃ a, op = mk a := by
    rintro op ⟨t, g, hg, x, hx, e⟩
    rw [hPt] at hg
    obtain ⟨a, -, rfl⟩ := List.mem_map.1 hg
    rw [List.mem_singleton] at hx
    subst hx
    rcases e with e | e
    · exact ⟨a, e⟩
    · cases e
  have hguard : Guarded P () := ⟨(), fun op ho _ => by obtain ⟨a, rfl⟩ := hocc op ho; exact hl a⟩
  have hinv := (Inv.start P (fun _ : Unit => init)).run schedule
  generalize (State.init P fun _ => init).run schedule = s at hinv ⊢
  have hnp : ∀ t, n ≤ t → P t = [] := by intro t ht; rw [hPt, hn t ht]; rfl
  obtain ⟨more, hfin⟩ := hinv.can_finish hnp
  have hinv' := hinv.run more
  obtain ⟨extra, hextra⟩ := done_grows s more
  have hcomplete : ∀ t, Complete (P t) (doneBy t (s.run more).done) := by
    intro t
    have := hinv'.ran t
    rw [hfin t] at this
    have := this.complete .nil
    rwa [List.append_nil] at this
  have hdid : ∀ (as : List α) (d : List (Op Unit Unit α R × Bool)),
      Complete (as.map fun a => [(mk a).alone]) d → d.map (·.1.what) = as := by
    intro as
    induction as with
    | nil => intro d h; cases h; rfl
    | cons a as ih =>
      intro d h
      cases h with
      | ok h =>
        cases h with
        | next h =>
          rw [List.map_cons, ih _ h]
          simp [Op.alone, hw]
      | failed h =>
        have h' : Complete ([] :: as.map fun a => [(mk a).alone]) _ := h
        cases h' with
        | next h =>
          rw [List.map_cons, ih _ h]
          simp [Op.alone, hw]
  have hall : ∀ t, (doneBy t (s.run more).done).map (·.1.what) = programs t := fun t => hdid _ _ (hPt t ▸ hcomplete t)
  have hby : ∀ (t : Nat) (done : List (Nat × Op Unit Unit α R × Bool)),
      (byThread t (done.map fun d => (d.1, d.2.1.what, d.2.2))).map (·.1) = (doneBy t done).map (·.1.what) := by
    intro t done
    induction done with
    | nil => rfl
    | cons d done ih =>
      by_cases h : d.1 = t
      · simpa [byThread, doneBy, h] using ih
      · simpa [byThread, doneBy, h] using ih
  have hafter := after_serial mk hw init
  have hmk : ∀ d ∈ s.done, ∃ a, d.2.1 = mk a := fun d hd => hocc _ (hinv.did hd)
  show (∀ t, (byThread t (s.done.map fun d => (d.1, d.2.1.what, d.2.2))).map (·.1) <+: programs t) ∧ _
  unfold State.emitted
  refine ⟨?_, ?_, ?_, ?_⟩
  · intro t
    rw [← hall t, hextra, doneBy_append, List.map_append, hby]
    exact List.prefix_append _ _
  · intro before x later e
    obtain ⟨l1, l2, e1, rfl, e3⟩ := map_split _ _ _ _ e
    cases l2 with
    | nil => cases e3
    | cons d l2 =>
      injection e3 with e3 _
      subst e3
      have ht := hinv.truthful () hguard l1 d l2 e1 rfl
      obtain ⟨a, ea⟩ := hmk d (by rw [e1]; simp)
      rw [hafter l1 fun y hy => hmk y (by rw [e1]; simp [hy])] at ht
      rw [serial_snoc]
      simp only [ht, ea, hw]
  · by_cases hbusy : ∃ t op past rest, Inside s t op past rest
    · obtain ⟨t, op, past, rest, hin⟩ := hbusy
      have hb := hinv.busy t op past rest hin hguard
      obtain ⟨x, ops, groups, etodo, hx⟩ := hin.todo
      obtain ⟨a, eop⟩ := hocc op (hx ▸ hinv.occurs etodo)
      have hb' : s.res () = past.foldl (fun r f => f r) (after () s.done init) := hb
      rw [hafter s.done hmk] at hb'
      refine .inr ⟨t, a, past, rest, ?_, by rw [← eop]; exact hin.steps, hb'⟩
      rw [← hall t, hby, hextra, doneBy_append, List.map_append]
      have hran := hinv.ran t
      rw [etodo] at hran
      have hc := hcomplete t
      rw [hextra, doneBy_append] at hc
      have hrest := hran.rest hc
      have : ∃ b m, doneBy t extra = (op, b) :: m := by
        rw [← hx]
        generalize doneBy t extra = e at hrest
        cases hrest with
        | ok _ => exact ⟨_, _, rfl⟩
        | failed _ => exact ⟨_, _, rfl⟩
      obtain ⟨b, m, e⟩ := this
      rw [e, eop]
      exact ⟨m.map (·.1.what), by simp [hw]⟩
    · have hidle := hinv.idle () hguard fun t op past rest hin _ => hbusy ⟨t, op, past, rest, hin⟩
      exact .inl (by rw [hidle, hafter s.done hmk])
  · intro hf
    refine ⟨?_, fun t => ?_⟩
    · have hidle := hinv.idle () hguard fun t op past rest hin _ => by
        obtain ⟨x, ops, groups, etodo, -⟩ := hin.todo
        rw [hf t] at etodo
        cases etodo
      rw [hidle, hafter s.done hmk]
    · rw [← hall t, hby, finished_run hf]

end Blackhole.Lock
