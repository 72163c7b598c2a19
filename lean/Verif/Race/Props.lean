import Verif.Race.Steps

/-!
# C89: the root logger has no data races

Every number of threads, loggers and calls, and every schedule.
-/

namespace Blackhole.Race

open Spin (State)
open RootConc (Cmd)

variable {A B H : Type}

/-- **C89.** Two threads never access a word of a root logger or of its configurations without synchronisation, one of them
writing, as long as no member function is called before the constructor has returned: the two accesses are in one thread, or
a chain of locks given back and taken and of loggers made and used leads from one to the other. -/
theorem C89_race_free {cs : List (Cmd (A × B) H)} {s : State A B H} (h : State.init.run cs = some s)
    (hc : Constructed State.init cs) : ¬Races (trace State.init cs) := by
  have ok := ok_run (tr := []) ok_init (Spin.good_run (cs := []) rfl) hc h
  rw [List.nil_append] at ok
  rintro ⟨i, j, t, u, w, a, b, hi, hj, hne, hab, h1, h2⟩
  rcases Nat.lt_or_gt_of_ne hne with hlt | hlt
  · exact h1 (ok.ord i j t u w a b hlt hi hj hab)
  · exact h2 (ok.ord j i u t w b a hlt hj hi hab.symm)

/-- **C89.** Of two such accesses the one that comes first in the schedule happens before the other, so what is read of a word
is what was written to it last: no thread can see memory in an order other than that of the schedule. -/
theorem C89_ordered {cs : List (Cmd (A × B) H)} {s : State A B H} (h : State.init.run cs = some s)
    (hc : Constructed State.init cs) {i j t u : Nat} {w : Word} {a b : Bool} (hij : i < j)
    (hi : (trace State.init cs)[i]? = some (⟨t, .touch w a⟩ : Event))
    (hj : (trace State.init cs)[j]? = some (⟨u, .touch w b⟩ : Event)) (hab : a = true ∨ b = true) :
    HB (trace State.init cs) i j := by
  have ok := ok_run (tr := []) ok_init (Spin.good_run (cs := []) rfl) hc h
  rw [List.nil_append] at ok
  exact ok.ord i j t u w a b hij hi hj hab

/-! ## A case that meets the hypotheses -/

/-- Thread 1 makes logger 0 and replaces its filter, while thread 2 logs. -/
def busy : List (Cmd (Nat × Nat) Nat) :=
  [.construct 1 (5, 6) 7, .log 2 0, .filter 1 0 (8, 9), .step 1, .step 2] ++ List.replicate 4 (.step 1) ++ [.step 2] ++
  List.replicate 4 (.step 1) ++ List.replicate 5 (.step 2) ++ List.replicate 5 (.step 1) ++ List.replicate 4 (.step 2)

def constructedB (s : State A B H) : List (Cmd (A × B) H) → Bool
  | [] => true
  | c :: cs => (named c).all (· < s.cells.length) && match s.act c with
    | none => true
    | some s' => constructedB s' cs

theorem constructed_of {cs : List (Cmd (A × B) H)} : ∀ {s : State A B H}, constructedB s cs = true → Constructed s cs := by
  induction cs with
  | nil => intro s _; trivial
  | cons c cs ih =>
    intro s h
    simp only [constructedB, Bool.and_eq_true, List.all_eq_true, decide_eq_true_eq] at h
    refine ⟨h.1, fun s' e => ih ?_⟩
    have := h.2
    rw [e] at this
    exact this

set_option maxRecDepth 100000 in
/-- The filter is written by thread 1 (event 14) and then read by thread 2 (event 25), each having met the other's lock. -/
example : ((State.init : State Nat Nat Nat).run busy).isSome = true ∧ Constructed (State.init : State Nat Nat Nat) busy
    ∧ (trace (State.init : State Nat Nat Nat) busy)[14]? = some (⟨1, .touch (.fa 0) true⟩ : Event)
    ∧ (trace (State.init : State Nat Nat Nat) busy)[25]? = some (⟨2, .touch (.fa 0) false⟩ : Event) :=
  ⟨rfl, constructed_of rfl, rfl, rfl⟩

/-- Thread 2 calls a logger that thread 1 is only about to make. -/
def early : List (Cmd (Nat × Nat) Nat) := [.log 2 0, .construct 1 (5, 6) 7, .step 2, .step 2]

def earlyTrace : List Event :=
  [⟨2, .meet 0⟩, ⟨1, .touch (.fa 0) true⟩, ⟨1, .touch (.fb 0) true⟩, ⟨1, .touch (.handlers 0) true⟩,
    ⟨1, .touch (.obj 0) true⟩, ⟨1, .touch (.ctl 0) true⟩, ⟨1, .make 0⟩, ⟨2, .acquire (.logger 0)⟩, ⟨2, .touch (.obj 0) false⟩]

theorem early_get {i : Nat} {e : Event} (h : earlyTrace[i]? = some e) :
    (i = 0 ∧ e = ⟨2, .meet 0⟩) ∨ (1 ≤ i ∧ i ≤ 6 ∧ e.thread = 1) ∨ (7 ≤ i ∧ e.thread = 2 ∧ ∀ l, e.ev ≠ .meet l) := by
  match i with
  | 0 => cases h; simp
  | 1 => cases h; simp
  | 2 => cases h; simp
  | 3 => cases h; simp
  | 4 => cases h; simp
  | 5 => cases h; simp
  | 6 => cases h; simp
  | 7 => cases h; simp
  | 8 => cases h; simp
  | _ + 9 => simp [earlyTrace] at h

theorem early_release {i t : Nat} {k : Spin.Lock} (h : earlyTrace[i]? = some (⟨t, .release k⟩ : Event)) : False := by
  match i with
  | 0 | 1 | 2 | 3 | 4 | 5 | 6 | 7 | 8 => cases h
  | _ + 9 => simp [earlyTrace] at h

theorem early_hb {i j : Nat} (h : HB earlyTrace i j) : 1 ≤ i → i ≤ 6 → j ≤ 6 := by
  induction h with
  | thread h hi hj =>
    intro h1 h2
    rcases early_get hi with ⟨_, _⟩ | ⟨_, _, e⟩ | ⟨_, _, _⟩ <;> rcases early_get hj with ⟨_, _⟩ | ⟨_, _, e'⟩ | ⟨_, e', _⟩ <;>
      first | omega | (simp only at e e'; omega)
  | lock h hi hj => exact (early_release hi).elim
  | made h hi hj =>
    intro h1 h2
    rcases early_get hj with ⟨_, _⟩ | ⟨_, h3, e'⟩ | ⟨_, _, e'⟩
    · omega
    · exact h3
    · exact absurd rfl (e' _)
  | trans a b iha ihb =>
    intro h1 h2
    have := iha h1 h2
    exact ihb (by have := a.lt; omega) this

/-- **C89.** The hypothesis is needed: a member function that is called before the constructor has returned races with it, and
the spinlock does not help. -/
theorem C89_fails_early : ∃ s, (State.init : State Nat Nat Nat).run early = some s
    ∧ Races (trace (State.init : State Nat Nat Nat) early) := by
  have ht : trace (State.init : State Nat Nat Nat) early = earlyTrace := rfl
  refine ⟨_, rfl, 4, 8, 1, 2, .obj 0, true, false, ?_⟩
  rw [ht]
  refine ⟨rfl, rfl, by omega, .inl rfl, fun h => ?_, fun h => ?_⟩
  · exact absurd (early_hb h (by omega) (by omega)) (by omega)
  · exact absurd h.lt (by omega)

end Blackhole.Race
