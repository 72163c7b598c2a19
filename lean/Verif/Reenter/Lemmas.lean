import Verif.Reenter.Spec

/-! # Callbacks that use the library again: which locks are held -/

namespace Blackhole.Reenter

/-- Instructions that replace themselves by code which begins with an `unlock`. -/
def Instr.starts : Instr → Bool
  | .load _ | .copy _ | .loadFilter _ _ | .loadAssign _ _ => true
  | _ => false

/-- None of these is to come. -/
def Late (is : List Instr) : Prop := ∀ i ∈ is, i.starts = false

/-- A call that holds `h` can go on with these instructions: it locks and unlocks in turn and runs guarded callbacks only
under a lock. -/
def Fits : Option Mutex → List Instr → Prop
  | h, [] => h = none
  | h, .lock m :: is => h = none ∧ Fits (some m) is
  | h, .unlock m :: is => h = some m ∧ Fits none is
  | h, .user w :: is => (w.guarded = true ↔ h ≠ none) ∧ w ≠ .main ∧ Late is ∧ Fits h is
  | h, .io :: is => Late is ∧ Fits h is
  | h, .load l :: is => h = some (.pointer l) ∧ is = []
  | h, .copy c :: is => h = some (.config c) ∧ is = []
  | h, .ask _ _ :: is => h = none ∧ Late is ∧ Fits none is
  | h, .deliver _ :: is => h = none ∧ Late is ∧ Fits none is
  | h, .handle _ :: is => h = none ∧ Fits none is
  | h, .caught _ :: is => h = none ∧ Late is ∧ Fits none is
  | h, .report _ :: is => h = none ∧ Fits none is
  | h, .emit _ :: is => h = none ∧ Late is ∧ Fits none is
  | h, .loadFilter l _ :: is => h = some (.pointer l) ∧ is = []
  | h, .setFilter c _ :: is => h = some (.config c) ∧ Fits h is
  | h, .loadAssign _ src :: is => h = some (.pointer src) ∧ is = []
  | h, .store l _ :: is => h = some (.pointer l) ∧ Fits h is
  | h, .rethrow :: is => h = none ∧ Fits none is

@[simp] theorem late_nil : Late [] := by simp [Late]

@[simp] theorem late_cons {i : Instr} {is : List Instr} : Late (i :: is) ↔ i.starts = false ∧ Late is := by simp [Late]

@[simp] theorem late_append {a b : List Instr} : Late (a ++ b) ↔ Late a ∧ Late b := by
  simp only [Late, List.mem_append]
  exact ⟨fun h => ⟨fun i hi => h i (.inl hi), fun i hi => h i (.inr hi)⟩, fun h i hi => hi.elim (h.1 i) (h.2 i)⟩

theorem fits_append {a b : List Instr} (la : Late a) (ha : Fits h a) (lb : Late b) (hb : Fits none b) :
    Fits h (a ++ b) := by
  induction a generalizing h with
  | nil => simp only [Fits] at ha; subst ha; simpa using hb
  | cons i a ih => cases i <;> simp_all [Fits, Instr.starts] <;> exact ih (ha.1 ▸ ha.2)

theorem late_sink (k : SinkKind) : Late k.code := by cases k <;> simp [SinkKind.code, Instr.starts]

theorem fits_sink (k : SinkKind) : Fits none k.code := by
  cases k <;> simp [SinkKind.code, Fits, Who.guarded, Instr.starts]

theorem late_sinks (ks : List SinkKind) : Late (ks.flatMap SinkKind.code) := by
  induction ks with
  | nil => simp
  | cons k ks ih => simpa using ⟨late_sink k, ih⟩

theorem fits_sinks (ks : List SinkKind) : Fits none (ks.flatMap SinkKind.code) := by
  induction ks with
  | nil => simp [Fits]
  | cons k ks ih => simpa using fits_append (late_sink k) (fits_sink k) (late_sinks ks) ih

theorem late_handler (k : HandlerKind) : Late k.code := by
  cases k with
  | blocking ks => simpa [HandlerKind.code, Instr.starts] using late_sinks ks
  | dev => simp [HandlerKind.code, Instr.starts]
  | custom => simp [HandlerKind.code, Instr.starts]

theorem fits_handler (k : HandlerKind) : Fits none k.code := by
  cases k with
  | blocking ks => simpa [HandlerKind.code, Fits, Who.guarded] using ⟨late_sinks ks, fits_sinks ks⟩
  | dev => simp [HandlerKind.code, Fits, Who.guarded, Instr.starts]
  | custom => simp [HandlerKind.code, Fits, Who.guarded]

theorem late_loop (hs : List HandlerKind) : ∀ i, Late (loop i hs) := by
  induction hs with
  | nil => intro i; simp [loop]
  | cons k hs ih => intro i; simpa [loop, Instr.starts] using ⟨late_handler k, ih _⟩

theorem fits_loop (hs : List HandlerKind) : ∀ i, Fits none (loop i hs) := by
  induction hs with
  | nil => intro i; simp [loop, Fits]
  | cons k hs ih =>
    intro i
    simp only [loop, Fits, true_and]
    exact fits_append (late_handler k) (fits_handler k) (by simpa [Instr.starts] using late_loop hs _)
      (by simpa [Fits] using ⟨late_loop hs _, ih _⟩)

theorem late_emit (tty : Bool) : Late (emitCode tty) := by cases tty <;> simp [emitCode, Instr.starts]

theorem fits_emit (tty : Bool) : Fits none (emitCode tty) := by
  cases tty <;> simp [emitCode, Fits, Who.guarded, Instr.starts]

theorem fits_api (a : Api) : Fits none a.code := by
  cases a <;> simp [Api.code, Fits]
  split <;> simp [Fits]

theorem late_leave {is : List Instr} (h : Late is) : Late (leave is) := by
  fun_induction leave is <;> simp_all [Instr.starts]

theorem late_discard {is : List Instr} (h : Late is) : Late (discard is) := by
  fun_induction discard is <;> simp_all [Instr.starts] <;> exact late_leave h

theorem late_unwind {is : List Instr} (h : Late is) : Late (unwind is) := by
  fun_induction unwind is <;> simp_all [Instr.starts] <;> first | exact late_discard h | exact late_leave h

theorem fits_leave {is : List Instr} (hl : Late is) : Fits none (leave is) := by
  fun_induction leave is with
  | case1 => simp [Fits]
  | case2 is ih =>
    simp only [late_cons] at hl
    simpa [Fits, Who.guarded] using ⟨late_leave hl.2, ih hl.2⟩
  | case3 i is h ih => exact ih (late_cons.1 hl).2

theorem fits_discard {is : List Instr} : ∀ {h}, Late is → Fits h is → Fits none (discard is) := by
  fun_induction discard is with
  | case1 => intro h _ _; simp [Fits]
  | case2 is =>
    intro h hl hf
    simp only [late_cons] at hl
    simpa [Fits, Who.guarded] using ⟨late_leave hl.2, fits_leave hl.2⟩
  | case3 i is => intro h hl hf; exact fits_leave (late_cons.1 hl).2
  | case4 i is => intro h hl hf; simp only [Fits, true_and] at hf ⊢; exact hf.2.2
  | case5 i is h1 h2 h3 ih =>
    intro h hl hf
    simp only [late_cons] at hl
    cases i <;> simp only [Fits] at hf <;> simp [Instr.starts] at hl <;>
      first | exact ih hl hf | exact ih hl hf.2 | exact ih hl hf.2.2 | exact ih hl hf.2.2.2

theorem fits_unwind {is : List Instr} : ∀ {h}, Late is → Fits h is → Fits h (unwind is) := by
  fun_induction unwind is with
  | case1 => intro h _ hf; simp only [Fits] at hf ⊢; exact ⟨hf, trivial⟩
  | case2 m is =>
    intro h hl hf
    simp only [Fits, late_cons] at hf hl ⊢
    exact ⟨hf.1, fits_discard hl.2 hf.2⟩
  | case3 m is =>
    intro h hl hf
    simp only [Fits, late_cons] at hf hl
    obtain ⟨rfl, hf⟩ := hf
    exact fits_discard hl.2 hf
  | case4 is =>
    intro h hl hf
    simp only [Fits, late_cons] at hf hl ⊢
    have hn : h = none := by
      have := hf.1
      simp [Who.guarded] at this
      exact this
    subst hn
    exact ⟨hf.1, hf.2.1, late_leave hl.2, fits_leave hl.2⟩
  | case5 i is =>
    intro h hl hf
    simp only [Fits] at hf
    rw [hf.1]
    exact fits_leave (late_cons.1 hl).2
  | case6 i is => intro h hl hf; simp only [Fits] at hf ⊢; exact ⟨hf.1, hf.2.2⟩
  | case7 i is h1 h2 h3 h4 h5 ih =>
    intro h hl hf
    simp only [late_cons] at hl
    cases i <;> simp only [Fits] at hf <;> simp [Instr.starts] at hl <;>
      first
        | exact absurd rfl (h1 _)
        | exact absurd rfl (h2 _)
        | exact absurd rfl (h4 _)
        | exact absurd rfl (h5 _)
        | exact ih hl hf
        | exact ih hl hf.2.2.2
        | (obtain ⟨rfl, -, hf⟩ := hf; exact ih hl hf)
        | (obtain ⟨rfl, hf⟩ := hf; exact ih hl hf)
        | exact ih hl hf.2

theorem fits_resume {is : List Instr} {h : Option Mutex} (r : Reply) (hl : Late is) (hf : Fits h is) :
    Fits h (resume r is) := by
  cases r with
  | yes => exact hf
  | throws => exact fits_unwind hl hf
  | no =>
    simp only [resume]
    split
    · simp only [Fits] at hf; rw [hf.1]; exact hf.2.2
    · simp only [Fits] at hf; rw [hf.1]; exact hf.2.2
    · exact hf

/-- A stack with user code on top, whose thread holds `h`. -/
def Good : Option Mutex → List Frame → Prop
  | h, [.usr w] => w = .main ∧ h = none
  | h, .usr w :: .lib _ is :: rest => (w.guarded = true ↔ h ≠ none) ∧ w ≠ .main ∧ Late is ∧ Fits h is ∧ Good none rest
  | _, _ => False

/-- A stack whose thread holds `h`. -/
def Top : Option Mutex → List Frame → Prop
  | h, .lib _ is :: rest => Fits h is ∧ Good none rest
  | h, st => Good h st

/-- Every thread holds what its stack says. -/
def Inv (s : State) : Prop := ∀ t, ∃ h, Top h (s.stack t) ∧ ∀ m, s.holder m = some t ↔ h = some m

theorem good_top {h : Option Mutex} {st : List Frame} (g : Good h st) : Top h st := by
  cases st with
  | nil => simp [Good] at g
  | cons f st => cases f with
    | usr w => exact g
    | lib n is => simp [Good] at g

theorem good_usr {h : Option Mutex} {st : List Frame} (g : Good h st) : ∃ w rest, st = .usr w :: rest := by
  cases st with
  | nil => simp [Good] at g
  | cons f st => cases f with
    | usr w => exact ⟨_, _, rfl⟩
    | lib n is => simp [Good] at g

theorem good_none {w : Who} {rest : List Frame} {h : Option Mutex} (g : Good h (.usr w :: rest)) :
    w.guarded = false ↔ h = none := by
  match rest, g with
  | [], g => simp only [Good] at g; obtain ⟨rfl, rfl⟩ := g; simp [Who.guarded]
  | .lib n is :: rest, g =>
    simp only [Good] at g
    have := g.1
    cases h <;> simp_all
  | .usr _ :: _, g => simp [Good] at g

@[simp] theorem upd_same {α β : Type} [DecidableEq α] (f : α → β) (a : α) (b : β) : upd f a b a = b := by simp [upd]

theorem upd_ne {α β : Type} [DecidableEq α] (f : α → β) {a x : α} (b : β) (h : x ≠ a) : upd f a b x = f x := by
  simp [upd, h]

/-- A step of one thread that leaves the locks alone. -/
theorem inv_put {s s' : State} {t : Nat} {h : Option Mutex} {st : List Frame} (hi : Inv s)
    (hold : ∀ m, s.holder m = some t ↔ h = some m) (hh : s'.holder = s.holder) (hs : s'.stack = upd s.stack t st)
    (g : Top h st) : Inv s' := by
  intro u
  by_cases hu : u = t
  · subst hu
    exact ⟨h, by rw [hs, upd_same]; exact g, by rw [hh]; exact hold⟩
  · obtain ⟨k, h1, h2⟩ := hi u
    exact ⟨k, by rw [hs, upd_ne _ _ hu]; exact h1, by rw [hh]; exact h2⟩

theorem inv_init (cells : Nat → Nat) (cfgs : Nat → Cfg) : Inv (State.init cells cfgs) := fun t =>
  ⟨none, by simp [State.init, Top, Good], by simp [State.init]⟩

theorem inv_call {s : State} {t : Nat} {a : Api} (hi : Inv s)
    (hg : ∀ w rest, s.stack t = .usr w :: rest → w.guarded = false) : Inv (s.call t a) := by
  simp only [State.call]
  split
  · rename_i w rest he
    obtain ⟨h, h1, h2⟩ := hi t
    rw [he] at h1
    have h1' : Good h (.usr w :: rest) := h1
    have := (good_none h1').1 (hg w rest he)
    subst this
    exact inv_put hi h2 rfl rfl ⟨fits_api a, h1'⟩
  · exact hi

theorem inv_ret {s : State} {t : Nat} {r : Reply} (hi : Inv s) : Inv (s.ret t r) := by
  simp only [State.ret]
  split
  · rename_i w n is rest he
    split
    · exact hi
    · obtain ⟨h, h1, h2⟩ := hi t
      rw [he] at h1
      have h1' : Good h (.usr w :: .lib n is :: rest) := h1
      simp only [Good] at h1'
      obtain ⟨-, -, hl, hf, hr⟩ := h1'
      refine inv_put (h := h) (st := .lib n (resume r is) :: rest) hi h2 ?_ ?_ ⟨fits_resume r hl hf, hr⟩
      · cases w <;> rfl
      · cases w <;> rfl
  · exact hi

theorem inv_exec {s : State} {t n : Nat} {fails : Bool} {i : Instr} {is : List Instr} {rest : List Frame} (hi : Inv s)
    (he : s.stack t = .lib n (i :: is) :: rest) : Inv (s.exec t n fails i is rest) := by
  obtain ⟨h, h1, h2⟩ := hi t
  rw [he] at h1
  obtain ⟨hf, hr⟩ : Fits h (i :: is) ∧ Good none rest := h1
  cases i with
  | lock m =>
    simp only [State.exec]
    simp only [Fits] at hf
    obtain ⟨rfl, hf⟩ := hf
    split
    · rename_i hm
      intro u
      by_cases hu : u = t
      · subst hu
        refine ⟨some m, ?_, ?_⟩
        · simpa [State.put] using ⟨hf, hr⟩
        · intro m'
          by_cases hm' : m' = m
          · subst hm'; simp [State.put]
          · simpa [State.put, upd_ne _ _ hm', Ne.symm hm'] using h2 m'
      · obtain ⟨k, k1, k2⟩ := hi u
        refine ⟨k, by simpa [State.put, upd_ne _ _ hu] using k1, ?_⟩
        intro m'
        by_cases hm' : m' = m
        · subst hm'
          have := k2 m'
          rw [hm] at this
          simpa [State.put, Ne.symm hu] using this
        · simpa [State.put, upd_ne _ _ hm'] using k2 m'
    · exact hi
  | unlock m =>
    simp only [State.exec]
    simp only [Fits] at hf
    obtain ⟨rfl, hf⟩ := hf
    have hm := (h2 m).2 rfl
    rw [if_pos hm]
    intro u
    by_cases hu : u = t
    · subst hu
      refine ⟨none, ?_, ?_⟩
      · simpa [State.put] using ⟨hf, hr⟩
      · intro m'
        by_cases hm' : m' = m
        · subst hm'; simp [State.put]
        · simpa [State.put, upd_ne _ _ hm', Ne.symm hm'] using h2 m'
    · obtain ⟨k, k1, k2⟩ := hi u
      refine ⟨k, by simpa [State.put, upd_ne _ _ hu] using k1, ?_⟩
      intro m'
      by_cases hm' : m' = m
      · subst hm'
        have := k2 m'
        rw [hm] at this
        simpa [State.put, Ne.symm hu] using this
      · simpa [State.put, upd_ne _ _ hm'] using k2 m'
  | user w =>
    simp only [Fits] at hf
    exact inv_put hi h2 rfl rfl (by simpa [Top, Good] using ⟨hf.1, hf.2.1, hf.2.2.1, hf.2.2.2, hr⟩)
  | io =>
    simp only [Fits] at hf
    refine inv_put hi h2 rfl rfl ⟨?_, hr⟩
    split
    · exact fits_unwind hf.1 hf.2
    · exact hf.2
  | load l =>
    simp only [Fits] at hf
    obtain ⟨rfl, rfl⟩ := hf
    exact inv_put hi h2 rfl rfl ⟨by simp [Fits], hr⟩
  | copy c =>
    simp only [Fits] at hf
    obtain ⟨rfl, rfl⟩ := hf
    exact inv_put hi h2 rfl rfl ⟨by simp [Fits, Who.guarded, Instr.starts], hr⟩
  | ask f hs =>
    simp only [Fits] at hf
    obtain ⟨rfl, hl, hf⟩ := hf
    exact inv_put hi h2 rfl rfl ⟨by simp [Fits, Who.guarded, Instr.starts, hl, hf], hr⟩
  | deliver hs =>
    simp only [Fits] at hf
    obtain ⟨rfl, hl, hf⟩ := hf
    exact inv_put hi h2 rfl rfl ⟨by
      simpa [Fits, Who.guarded, Instr.starts, hl, late_loop] using fits_append (late_loop hs 0) (fits_loop hs 0) hl hf, hr⟩
  | handle i =>
    simp only [Fits] at hf
    obtain ⟨rfl, hf⟩ := hf
    exact inv_put hi h2 rfl rfl ⟨hf, hr⟩
  | caught i =>
    simp only [Fits] at hf
    obtain ⟨rfl, -, hf⟩ := hf
    exact inv_put hi h2 rfl rfl ⟨hf, hr⟩
  | report i =>
    simp only [Fits] at hf
    obtain ⟨rfl, hf⟩ := hf
    exact inv_put hi h2 rfl rfl ⟨hf, hr⟩
  | emit tty =>
    simp only [Fits] at hf
    obtain ⟨rfl, hl, hf⟩ := hf
    exact inv_put hi h2 rfl rfl ⟨fits_append (late_emit tty) (fits_emit tty) hl hf, hr⟩
  | loadFilter l f =>
    simp only [Fits] at hf
    obtain ⟨rfl, rfl⟩ := hf
    exact inv_put hi h2 rfl rfl ⟨by simp [Fits, Who.guarded, Instr.starts], hr⟩
  | setFilter c f =>
    simp only [Fits] at hf
    exact inv_put hi h2 rfl rfl ⟨hf.2, hr⟩
  | loadAssign dst src =>
    simp only [Fits] at hf
    obtain ⟨rfl, rfl⟩ := hf
    exact inv_put hi h2 rfl rfl ⟨by simp [Fits, Who.guarded, Instr.starts], hr⟩
  | store l c =>
    simp only [Fits] at hf
    exact inv_put hi h2 rfl rfl ⟨hf.2, hr⟩
  | rethrow =>
    simp only [Fits] at hf
    obtain ⟨rfl, -⟩ := hf
    exact inv_put hi h2 rfl rfl (good_top hr)

theorem inv_tick {s : State} {t : Nat} {fails : Bool} (hi : Inv s) : Inv (s.tick t fails) := by
  simp only [State.tick]
  split
  · rename_i n rest he
    obtain ⟨h, h1, h2⟩ := hi t
    rw [he] at h1
    obtain ⟨hf, hr⟩ : Fits h [] ∧ Good none rest := h1
    simp only [Fits] at hf
    subst hf
    exact inv_put hi h2 rfl rfl (good_top hr)
  · rename_i n i is rest he
    exact inv_exec hi he
  · exact hi

theorem inv_step {s : State} {c : Cmd} (hi : Inv s)
    (hg : ∀ t a w rest, c = .call t a → s.stack t = .usr w :: rest → w.guarded = false) : Inv (s.step c) := by
  cases c with
  | call t a => exact inv_call hi (fun w rest h => hg t a w rest rfl h)
  | ret t r => exact inv_ret hi
  | tick t fails => exact inv_tick hi

theorem inv_run {s : State} {cs : List Cmd} (hi : Inv s) (hg : Gentle s cs) : Inv (s.run cs) := by
  induction cs generalizing s with
  | nil => exact hi
  | cons c cs ih => exact ih (inv_step hi hg.1) hg.2

theorem gentle_append {s : State} {a b : List Cmd} : Gentle s (a ++ b) ↔ Gentle s a ∧ Gentle (s.run a) b := by
  induction a generalizing s with
  | nil => simp [Gentle, State.run]
  | cons c a ih =>
    simp only [List.cons_append, Gentle, ih, State.run, List.foldl_cons]
    exact ⟨fun h => ⟨⟨h.1, h.2.1⟩, h.2.2⟩, fun h => ⟨h.1.1, h.1.2, h.2⟩⟩

end Blackhole.Reenter
