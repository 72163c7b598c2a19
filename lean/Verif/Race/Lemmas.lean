import Verif.Race.Spec
import Verif.Spin.Progress

namespace Blackhole.Race

open Spin (Lock State Access Cell Cfg Thread Stage loggersOf)
open RootConc (Pc Cmd)

variable {A B H : Type}

/-! ## Happens before -/

def Le (tr : List Event) (i j : Nat) : Prop := i = j ∨ HB tr i j

theorem HB.lt {tr : List Event} {i j : Nat} (h : HB tr i j) : i < j := by
  induction h with
  | thread h => exact h
  | lock h => exact h
  | made h => exact h
  | trans _ _ h1 h2 => omega

theorem get_old {tr es : List Event} {i : Nat} {e : Event} (h : tr[i]? = some e) : (tr ++ es)[i]? = some e := by
  rw [List.getElem?_append_left (List.getElem?_eq_some_iff.mp h).1]; exact h

theorem HB.mono {tr es : List Event} {i j : Nat} (h : HB tr i j) : HB (tr ++ es) i j := by
  induction h with
  | thread h hi hj => exact .thread h (get_old hi) (get_old hj)
  | lock h hi hj => exact .lock h (get_old hi) (get_old hj)
  | made h hi hj => exact .made h (get_old hi) (get_old hj)
  | trans _ _ h1 h2 => exact .trans h1 h2

theorem Le.mono {tr es : List Event} {i j : Nat} (h : Le tr i j) : Le (tr ++ es) i j := h.imp id HB.mono

theorem Le.hb {tr : List Event} {i j k : Nat} (h : Le tr i j) (h' : HB tr j k) : HB tr i k := by
  rcases h with rfl | h
  · exact h'
  · exact .trans h h'

theorem Le.trans {tr : List Event} {i j k : Nat} (h : Le tr i j) (h' : Le tr j k) : Le tr i k := by
  rcases h' with rfl | h'
  · exact h
  · exact .inr (h.hb h')

theorem get_snoc {tr : List Event} {t u : Nat} {e e' : Ev} {i : Nat}
    (h : (tr ++ [⟨t, e⟩])[i]? = some (⟨u, e'⟩ : Event)) :
    tr[i]? = some (⟨u, e'⟩ : Event) ∨ i = tr.length ∧ u = t ∧ e' = e := by
  rcases Nat.lt_or_ge i tr.length with hi | hi
  · rw [List.getElem?_append_left hi] at h; exact .inl h
  · rw [List.getElem?_append_right hi] at h
    rcases Nat.lt_or_ge (i - tr.length) 1 with h1 | h1
    · have h2 : i - tr.length = 0 := by omega
      rw [h2] at h
      simp only [List.getElem?_cons_zero, Option.some.injEq, Event.mk.injEq] at h
      exact .inr ⟨by omega, h.1.symm, h.2.symm⟩
    · rw [List.getElem?_eq_none (by simpa using h1)] at h
      cases h

theorem get_last (tr : List Event) (e : Event) : (tr ++ [e])[tr.length]? = some e := by simp

theorem len_of {tr : List Event} {i : Nat} {e : Event} (h : tr[i]? = some e) : i < tr.length :=
  (List.getElem?_eq_some_iff.mp h).1

/-- Thread `t` knows that event `i` has happened. -/
def Known (tr : List Event) (t i : Nat) : Prop := ∃ j e, tr[j]? = some (⟨t, e⟩ : Event) ∧ Le tr i j

theorem Known.mono {tr es : List Event} {t i : Nat} (h : Known tr t i) : Known (tr ++ es) t i := by
  obtain ⟨j, e, h1, h2⟩ := h
  exact ⟨j, e, get_old h1, h2.mono⟩

theorem Known.le {tr : List Event} {t i j : Nat} (h : Known tr t j) (hi : Le tr i j) : Known tr t i := by
  obtain ⟨k, e, h1, h2⟩ := h
  exact ⟨k, e, h1, hi.trans h2⟩

theorem Known.hb {tr : List Event} {t i : Nat} {e : Ev} (h : Known tr t i) : HB (tr ++ [⟨t, e⟩]) i tr.length := by
  obtain ⟨j, e', h1, h2⟩ := h
  exact h2.mono.hb (.thread (len_of h1) (get_old h1) (get_last _ _))

theorem Known.self {tr : List Event} {t : Nat} {e : Ev} : Known (tr ++ [⟨t, e⟩]) t tr.length :=
  ⟨tr.length, e, get_last _ _, .inl rfl⟩

/-- Whoever takes lock `k`, or has been told of `b`, knows `i`. -/
def Via (tr : List Event) (k : Lock) (b : Ev) (lock : Option Nat) (i : Nat) : Prop :=
  match lock with
  | none => ∃ j u, (tr[j]? = some (⟨u, .release k⟩ : Event) ∨ tr[j]? = some (⟨u, b⟩ : Event)) ∧ Le tr i j
  | some t => Known tr t i

theorem Via.mono {tr es : List Event} {k : Lock} {b : Ev} {lock : Option Nat} {i : Nat} (h : Via tr k b lock i) :
    Via (tr ++ es) k b lock i := by
  cases lock with
  | none =>
    obtain ⟨j, u, h1, h2⟩ := h
    exact ⟨j, u, h1.imp get_old get_old, h2.mono⟩
  | some t => exact Known.mono h

theorem Via.acquire {tr : List Event} {k : Lock} {b : Ev} {i t : Nat} (h : Via tr k b none i)
    (hb : ∀ j u, tr[j]? = some (⟨u, b⟩ : Event) → Known tr t j) : Known (tr ++ [⟨t, .acquire k⟩]) t i := by
  obtain ⟨j, u, h1 | h1, h2⟩ := h
  · exact ⟨_, _, get_last _ _, .inr (h2.mono.hb (.lock (len_of h1) (get_old h1) (get_last _ _)))⟩
  · exact ((hb j u h1).le h2).mono

theorem Via.release {tr : List Event} {k : Lock} {b : Ev} {i t : Nat} (h : Known tr t i) :
    Via (tr ++ [⟨t, .release k⟩]) k b none i :=
  ⟨_, t, .inl (get_last _ _), .inr h.hb⟩

/-! ## The invariant -/

/-- The configurations that a thread has pointers to. -/
def configsOf (th : Thread A B) : List Nat :=
  (match th.pc with
    | .logLoaded _ _ c | .filterLoaded _ _ c | .filterSet _ c | .assignLoaded _ c => [c]
    | _ => []) ++
  match th.stage with
  | .half o => [o]
  | .full o k | .ready o k _ => [o, k]
  | _ => []

/-- The last word of a configuration to be written when it is made. -/
def made (c : Nat) : Ev := .touch (.handlers c) true

structure Ok (tr : List Event) (s : State A B H) : Prop where
  ord : ∀ i j t u w a b, i < j → tr[i]? = some (⟨t, .touch w a⟩ : Event) → tr[j]? = some (⟨u, .touch w b⟩ : Event) → a = true ∨ b = true →
    HB tr i j
  cellW : ∀ l (x : Cell), s.cells[l]? = some x → ∀ i t w a, tr[i]? = some (⟨t, .touch w a⟩ : Event) → w = .obj l ∨ w = .ctl l →
    Via tr (.logger l) (.make l) x.lock i
  cellC : ∀ l (x : Cell), s.cells[l]? = some x → ∀ c, c = x.obj ∨ c = x.ctl → ∀ i t, tr[i]? = some (⟨t, made c⟩ : Event) →
    Via tr (.logger l) (.make l) x.lock i
  cfgW : ∀ c (x : Cfg A B H), s.cfgs[c]? = some x → ∀ i t w a, tr[i]? = some (⟨t, .touch w a⟩ : Event) → w = .fa c ∨ w = .fb c →
    Via tr (.config c) (made c) x.lock i
  thrC : ∀ t c, c ∈ configsOf (s.thr t) → ∀ i u, tr[i]? = some (⟨u, made c⟩ : Event) → Known tr t i
  thrL : ∀ t l, l ∈ loggersOf (s.thr t).pc → ∀ i u, tr[i]? = some (⟨u, .make l⟩ : Event) → Known tr t i
  newL : ∀ (i t l : Nat) (a : Bool), tr[i]? = some (⟨t, .make l⟩ : Event) ∨ tr[i]? = some (⟨t, .touch (.obj l) a⟩ : Event) ∨ tr[i]? = some (⟨t, .touch (.ctl l) a⟩ : Event) →
    l < s.cells.length
  newC : ∀ (i t c : Nat) (a : Bool), tr[i]? = some (⟨t, .touch (.fa c) a⟩ : Event) ∨ tr[i]? = some (⟨t, .touch (.fb c) a⟩ : Event)
    ∨ tr[i]? = some (⟨t, .touch (.handlers c) a⟩ : Event) → c < s.cfgs.length
  cellR : ∀ (l : Nat) (x : Cell), s.cells[l]? = some x → x.obj < s.cfgs.length ∧ x.ctl < s.cfgs.length
  thrR : ∀ t, (∀ c ∈ configsOf (s.thr t), c < s.cfgs.length) ∧ ∀ l ∈ loggersOf (s.thr t).pc, l < s.cells.length

theorem ok_init : Ok [] (State.init : State A B H) := by
  constructor <;> simp [State.init, configsOf, loggersOf]

/-- An event that makes nothing and touches nothing. -/
def Plain (e : Ev) : Prop := (∀ l, e ≠ .make l) ∧ ∀ w a, e ≠ .touch w a

theorem goTo_thr (s : State A B H) (t u : Nat) (p : Thread A B) : (s.goTo t p).thr u = if u = t then p else s.thr u := rfl

/-- A step in a section of logger `l`. -/
theorem ok_pointer {tr : List Event} {s : State A B H} (h : Ok tr s) {t l : Nat} {x x' : Cell} {th : Thread A B} {e : Ev}
    (hx : s.cells[l]? = some x)
    (he : Plain e ∨ ∃ a, e = .touch (.obj l) a ∨ e = .touch (.ctl l) a)
    (ho : ∀ w a, e = .touch w a → x.lock = some t ∧ x'.lock = some t)
    (h1 : ∀ i, Via tr (.logger l) (.make l) x.lock i → Via (tr ++ [⟨t, e⟩]) (.logger l) (.make l) x'.lock i)
    (h2 : ∀ c, c = x'.obj ∨ c = x'.ctl → (c = x.obj ∨ c = x.ctl) ∨ c ∈ configsOf (s.thr t) ∧ x'.lock = some t)
    (h3 : ∀ c ∈ configsOf th, c ∈ configsOf (s.thr t) ∨ (c = x.obj ∨ c = x.ctl) ∧ x.lock = some t)
    (h4 : ∀ l' ∈ loggersOf th.pc, l' ∈ loggersOf (s.thr t).pc) :
    Ok (tr ++ [⟨t, e⟩]) ((s.setCell l x').goTo t th) := by
  have nomake : ∀ l', e ≠ .make l' := by
    rcases he with he | ⟨a, rfl | rfl⟩
    · exact he.1
    all_goals intro l' e; cases e
  have nocfg : ∀ c a, e ≠ .touch (.fa c) a ∧ e ≠ .touch (.fb c) a ∧ e ≠ .touch (.handlers c) a := by
    intro c a
    rcases he with he | ⟨a', rfl | rfl⟩
    · exact ⟨he.2 _ _, he.2 _ _, he.2 _ _⟩
    all_goals simp
  have onlyl : ∀ l' a, e = .touch (.obj l') a ∨ e = .touch (.ctl l') a → l' = l := by
    intro l' a h
    rcases he with he | ⟨a', rfl | rfl⟩
    · exact absurd h (by simp [he.2])
    · simpa using Eq.symm (by simpa using (h.resolve_right (by simp)) : l = l' ∧ _).1
    · simpa using Eq.symm (by simpa using (h.resolve_left (by simp)) : l = l' ∧ _).1
  have hlen : l < s.cells.length := (List.getElem?_eq_some_iff.mp hx).1
  have cell : ∀ l' (y : Cell), (s.cells.set l x')[l']? = some y → l' = l ∧ y = x' ∨ l' ≠ l ∧ s.cells[l']? = some y := by
    intro l' y hy
    by_cases e : l' = l
    · subst e; rw [List.getElem?_set_self hlen] at hy; exact .inl ⟨rfl, by simpa using hy.symm⟩
    · rw [List.getElem?_set_ne (Ne.symm e)] at hy; exact .inr ⟨e, hy⟩
  have hmade : ∀ (i u c : Nat), (tr ++ [⟨t, e⟩])[i]? = some (⟨u, made c⟩ : Event) → tr[i]? = some (⟨u, made c⟩ : Event) := by
    intro i u c hi
    rcases get_snoc hi with h' | ⟨_, _, h'⟩
    · exact h'
    · exact absurd h'.symm (nocfg c true).2.2
  refine ⟨?_, ?_, ?_, ?_, ?_, ?_, ?_, ?_, ?_, ?_⟩
  · intro i j t1 u w a b hij hi hj hab
    rcases get_snoc hj with hj' | ⟨hj1, hj2, hj3⟩
    · rcases get_snoc hi with hi' | ⟨hi1, _⟩
      · exact (h.ord i j t1 u w a b hij hi' hj' hab).mono
      · exact absurd (len_of hj') (by omega)
    · rcases get_snoc hi with hi' | ⟨hi1, _⟩
      · have hw : w = .obj l ∨ w = .ctl l := by
          rcases he with he | ⟨a', he | he⟩
          · exact absurd hj3.symm (he.2 w b)
          · rw [he] at hj3; cases hj3; exact .inl rfl
          · rw [he] at hj3; cases hj3; exact .inr rfl
        have := h.cellW l x hx i t1 w a hi' hw
        rw [(ho w b hj3.symm).1] at this
        rw [hj1]
        exact Known.hb this
      · omega
  · intro l' y hy i t1 w a hi hw
    rcases cell l' y hy with ⟨rfl, rfl⟩ | ⟨hne, hy⟩
    · rcases get_snoc hi with hi' | ⟨hi1, hi2, hi3⟩
      · exact h1 i (h.cellW _ x hx i t1 w a hi' hw)
      · rw [(ho w a hi3.symm).2, hi1]
        exact Known.self
    · rcases get_snoc hi with hi' | ⟨hi1, hi2, hi3⟩
      · exact (h.cellW l' y hy i t1 w a hi' hw).mono
      · exact absurd (onlyl l' a (by rcases hw with rfl | rfl <;> simp [hi3])) hne
  · intro l' y hy c hc i t1 hi
    have hi' := hmade i t1 c hi
    rcases cell l' y hy with ⟨rfl, rfl⟩ | ⟨hne, hy⟩
    · rcases h2 c hc with hc | ⟨hc, hl⟩
      · exact h1 i (h.cellC _ x hx c hc i t1 hi')
      · rw [hl]
        exact (h.thrC t c hc i t1 hi').mono
    · exact (h.cellC l' y hy c hc i t1 hi').mono
  · intro c y hy i t1 w a hi hw
    rcases get_snoc hi with hi' | ⟨_, _, hi3⟩
    · exact (h.cfgW c y hy i t1 w a hi' hw).mono
    · rcases hw with rfl | rfl
      · exact absurd hi3.symm (nocfg c a).1
      · exact absurd hi3.symm (nocfg c a).2.1
  · intro u c hc i t1 hi
    have hi' := hmade i t1 c hi
    rw [goTo_thr] at hc
    split at hc
    · next e' =>
      subst e'
      rcases h3 c hc with hc | ⟨hc, hl⟩
      · exact (h.thrC u c hc i t1 hi').mono
      · have := h.cellC l x hx c hc i t1 hi'
        rw [hl] at this
        exact Known.mono this
    · exact (h.thrC u c hc i t1 hi').mono
  · intro u l' hl' i t1 hi
    have hi' : tr[i]? = some (⟨t1, .make l'⟩ : Event) := by
      rcases get_snoc hi with hi' | ⟨_, _, hi3⟩
      · exact hi'
      · exact absurd hi3.symm (nomake l')
    rw [goTo_thr] at hl'
    split at hl'
    · next e' => subst e'; exact (h.thrL u l' (h4 l' hl') i t1 hi').mono
    · exact (h.thrL u l' hl' i t1 hi').mono
  · intro i t1 l' a hi
    have : ((s.setCell l x').goTo t th).cells.length = s.cells.length := by simp [State.goTo, State.setCell]
    rw [this]
    rcases hi with hi | hi | hi <;> rcases get_snoc hi with hi' | ⟨_, _, hi'⟩
    · exact h.newL i t1 l' a (.inl hi')
    · exact absurd hi'.symm (nomake l')
    · exact h.newL i t1 l' a (.inr (.inl hi'))
    · rw [onlyl l' a (.inl hi'.symm)]; exact hlen
    · exact h.newL i t1 l' a (.inr (.inr hi'))
    · rw [onlyl l' a (.inr hi'.symm)]; exact hlen
  · intro i t1 c a hi
    refine h.newC i t1 c a ?_
    rcases hi with hi | hi | hi <;> rcases get_snoc hi with hi' | ⟨_, _, hi'⟩
    · exact .inl hi'
    · exact absurd hi'.symm (nocfg c a).1
    · exact .inr (.inl hi')
    · exact absurd hi'.symm (nocfg c a).2.1
    · exact .inr (.inr hi')
    · exact absurd hi'.symm (nocfg c a).2.2
  · intro l' y hy
    rcases cell l' y hy with ⟨rfl, rfl⟩ | ⟨hne, hy⟩
    · have key : ∀ c, c = y.obj ∨ c = y.ctl → c < s.cfgs.length := by
        intro c hc
        rcases h2 c hc with (rfl | rfl) | ⟨hc, _⟩
        · exact (h.cellR _ x hx).1
        · exact (h.cellR _ x hx).2
        · exact (h.thrR t).1 c hc
      exact ⟨key _ (.inl rfl), key _ (.inr rfl)⟩
    · exact h.cellR l' y hy
  · intro u
    rw [goTo_thr]
    split
    · refine ⟨fun c hc => ?_, fun l' hl' => ?_⟩
      · rcases h3 c hc with hc | ⟨rfl | rfl, _⟩
        · exact (h.thrR t).1 c hc
        · exact (h.cellR l x hx).1
        · exact (h.cellR l x hx).2
      · have := (h.thrR t).2 l' (h4 l' hl')
        simpa [State.goTo, State.setCell] using this
    · simpa [State.goTo, State.setCell] using h.thrR u

/-- A step in a section of configuration `c`. -/
theorem ok_filter {tr : List Event} {s : State A B H} (h : Ok tr s) {t c : Nat} {x x' : Cfg A B H} {th : Thread A B} {e : Ev}
    (hx : s.cfgs[c]? = some x)
    (he : Plain e ∨ ∃ a, e = .touch (.fa c) a ∨ e = .touch (.fb c) a)
    (ho : ∀ w a, e = .touch w a → x.lock = some t ∧ x'.lock = some t)
    (h1 : ∀ i, Via tr (.config c) (made c) x.lock i → Via (tr ++ [⟨t, e⟩]) (.config c) (made c) x'.lock i)
    (h3 : ∀ c' ∈ configsOf th, c' ∈ configsOf (s.thr t))
    (h4 : ∀ l' ∈ loggersOf th.pc, l' ∈ loggersOf (s.thr t).pc) :
    Ok (tr ++ [⟨t, e⟩]) ((s.setCfg c x').goTo t th) := by
  have nomake : ∀ l', e ≠ .make l' := by
    rcases he with he | ⟨a, rfl | rfl⟩
    · exact he.1
    all_goals intro l' e; cases e
  have nocell : ∀ l a, e ≠ .touch (.obj l) a ∧ e ≠ .touch (.ctl l) a ∧ e ≠ .touch (.handlers l) a := by
    intro c a
    rcases he with he | ⟨a', rfl | rfl⟩
    · exact ⟨he.2 _ _, he.2 _ _, he.2 _ _⟩
    all_goals simp
  have onlyc : ∀ c' a, e = .touch (.fa c') a ∨ e = .touch (.fb c') a → c' = c := by
    intro c' a h
    rcases he with he | ⟨a', rfl | rfl⟩
    · exact absurd h (by simp [he.2])
    · simpa using Eq.symm (by simpa using (h.resolve_right (by simp)) : c = c' ∧ _).1
    · simpa using Eq.symm (by simpa using (h.resolve_left (by simp)) : c = c' ∧ _).1
  have hlen : c < s.cfgs.length := (List.getElem?_eq_some_iff.mp hx).1
  have cfg : ∀ c' (y : Cfg A B H), (s.cfgs.set c x')[c']? = some y → c' = c ∧ y = x' ∨ c' ≠ c ∧ s.cfgs[c']? = some y := by
    intro c' y hy
    by_cases e : c' = c
    · subst e; rw [List.getElem?_set_self hlen] at hy; exact .inl ⟨rfl, by simpa using hy.symm⟩
    · rw [List.getElem?_set_ne (Ne.symm e)] at hy; exact .inr ⟨e, hy⟩
  have hmade : ∀ (i u c : Nat), (tr ++ [⟨t, e⟩])[i]? = some (⟨u, made c⟩ : Event) → tr[i]? = some (⟨u, made c⟩ : Event) := by
    intro i u c hi
    rcases get_snoc hi with h' | ⟨_, _, h'⟩
    · exact h'
    · exact absurd h'.symm (nocell c true).2.2
  have lenc : ((s.setCfg c x').goTo t th).cfgs.length = s.cfgs.length := by simp [State.goTo, State.setCfg]
  refine ⟨?_, ?_, ?_, ?_, ?_, ?_, ?_, ?_, ?_, ?_⟩
  · intro i j t1 u w a b hij hi hj hab
    rcases get_snoc hj with hj' | ⟨hj1, hj2, hj3⟩
    · rcases get_snoc hi with hi' | ⟨hi1, _⟩
      · exact (h.ord i j t1 u w a b hij hi' hj' hab).mono
      · exact absurd (len_of hj') (by omega)
    · rcases get_snoc hi with hi' | ⟨hi1, _⟩
      · have hw : w = .fa c ∨ w = .fb c := by
          rcases he with he | ⟨a', he | he⟩
          · exact absurd hj3.symm (he.2 w b)
          · rw [he] at hj3; cases hj3; exact .inl rfl
          · rw [he] at hj3; cases hj3; exact .inr rfl
        have := h.cfgW c x hx i t1 w a hi' hw
        rw [(ho w b hj3.symm).1] at this
        rw [hj1]
        exact Known.hb this
      · omega
  · intro l' y hy i t1 w a hi hw
    rcases get_snoc hi with hi' | ⟨hi1, hi2, hi3⟩
    · exact (h.cellW l' y hy i t1 w a hi' hw).mono
    · rcases hw with rfl | rfl
      · exact absurd hi3.symm (nocell l' a).1
      · exact absurd hi3.symm (nocell l' a).2.1
  · intro l' y hy c hc i t1 hi
    exact (h.cellC l' y hy c hc i t1 (hmade i t1 c hi)).mono
  · intro c' y hy i t1 w a hi hw
    rcases cfg c' y hy with ⟨rfl, rfl⟩ | ⟨hne, hy⟩
    · rcases get_snoc hi with hi' | ⟨hi1, hi2, hi3⟩
      · exact h1 i (h.cfgW _ x hx i t1 w a hi' hw)
      · rw [(ho w a hi3.symm).2, hi1]
        exact Known.self
    · rcases get_snoc hi with hi' | ⟨hi1, hi2, hi3⟩
      · exact (h.cfgW c' y hy i t1 w a hi' hw).mono
      · exact absurd (onlyc c' a (by rcases hw with rfl | rfl <;> simp [hi3])) hne
  · intro u c hc i t1 hi
    have hi' := hmade i t1 c hi
    rw [goTo_thr] at hc
    split at hc
    · next e' => subst e'; exact (h.thrC u c (h3 c hc) i t1 hi').mono
    · exact (h.thrC u c hc i t1 hi').mono
  · intro u l' hl' i t1 hi
    have hi' : tr[i]? = some (⟨t1, .make l'⟩ : Event) := by
      rcases get_snoc hi with hi' | ⟨_, _, hi3⟩
      · exact hi'
      · exact absurd hi3.symm (nomake l')
    rw [goTo_thr] at hl'
    split at hl'
    · next e' => subst e'; exact (h.thrL u l' (h4 l' hl') i t1 hi').mono
    · exact (h.thrL u l' hl' i t1 hi').mono
  · intro i t1 l' a hi
    refine h.newL i t1 l' a ?_
    rcases hi with hi | hi | hi <;> rcases get_snoc hi with hi' | ⟨_, _, hi'⟩
    · exact .inl hi'
    · exact absurd hi'.symm (nomake l')
    · exact .inr (.inl hi')
    · exact absurd hi'.symm (nocell l' a).1
    · exact .inr (.inr hi')
    · exact absurd hi'.symm (nocell l' a).2.1
  · intro i t1 c' a hi
    rw [lenc]
    rcases hi with hi | hi | hi <;> rcases get_snoc hi with hi' | ⟨_, _, hi'⟩
    · exact h.newC i t1 c' a (.inl hi')
    · rw [onlyc c' a (.inl hi'.symm)]; exact hlen
    · exact h.newC i t1 c' a (.inr (.inl hi'))
    · rw [onlyc c' a (.inr hi'.symm)]; exact hlen
    · exact h.newC i t1 c' a (.inr (.inr hi'))
    · exact absurd hi'.symm (nocell c' a).2.2
  · intro l' y hy
    rw [lenc]
    exact h.cellR l' y hy
  · intro u
    rw [goTo_thr, lenc]
    split
    · exact ⟨fun c hc => (h.thrR t).1 c (h3 c hc), fun l' hl' => (h.thrR t).2 l' (h4 l' hl')⟩
    · exact h.thrR u

/-- A step without an event: the thread keeps what it has, and no lock changes. -/
theorem ok_quiet {tr : List Event} {s s' : State A B H} (h : Ok tr s) {t : Nat} {th : Thread A B}
    (hthr : s'.thr = fun u => if u = t then th else s.thr u)
    (hcells : s'.cells = s.cells) (hlen : s'.cfgs.length = s.cfgs.length)
    (hcfg : ∀ (c : Nat) (y : Cfg A B H), s'.cfgs[c]? = some y → ∃ x : Cfg A B H, s.cfgs[c]? = some x ∧ x.lock = y.lock)
    (h3 : ∀ c' ∈ configsOf th, c' ∈ configsOf (s.thr t))
    (h4 : ∀ l' ∈ loggersOf th.pc, l' ∈ loggersOf (s.thr t).pc) : Ok tr s' := by
  have sub : ∀ u, (∀ c ∈ configsOf (s'.thr u), c ∈ configsOf (s.thr u))
      ∧ ∀ l ∈ loggersOf (s'.thr u).pc, l ∈ loggersOf (s.thr u).pc := by
    intro u
    simp only [hthr]
    split
    · next e => subst e; exact ⟨h3, h4⟩
    · exact ⟨fun _ h => h, fun _ h => h⟩
  refine ⟨h.ord, ?_, ?_, ?_, ?_, ?_, ?_, ?_, ?_, ?_⟩
  · rw [hcells]; exact h.cellW
  · rw [hcells]; exact h.cellC
  · intro c y hy i t1 w a hi hw
    obtain ⟨x, hx, hl⟩ := hcfg c y hy
    rw [← hl]
    exact h.cfgW c x hx i t1 w a hi hw
  · intro u c hc
    exact h.thrC u c ((sub u).1 c hc)
  · intro u l hl
    exact h.thrL u l ((sub u).2 l hl)
  · rw [hcells]; exact h.newL
  · rw [hlen]; exact h.newC
  · rw [hcells, hlen]; exact h.cellR
  · intro u
    rw [hcells, hlen]
    exact ⟨fun c hc => (h.thrR u).1 c ((sub u).1 c hc), fun l hl => (h.thrR u).2 l ((sub u).2 l hl)⟩

/-- An event that makes nothing and touches nothing, without a step. -/
theorem ok_plain {tr : List Event} {s : State A B H} (h : Ok tr s) {t : Nat} {e : Ev} (he : Plain e) :
    Ok (tr ++ [⟨t, e⟩]) s := by
  have touch : ∀ (i u : Nat) (w : Word) (a : Bool), (tr ++ [⟨t, e⟩])[i]? = some (⟨u, .touch w a⟩ : Event) →
      tr[i]? = some (⟨u, .touch w a⟩ : Event) := by
    intro i u w a hi
    rcases get_snoc hi with h' | ⟨_, _, h'⟩
    · exact h'
    · exact absurd h'.symm (he.2 w a)
  have make : ∀ (i u l : Nat), (tr ++ [⟨t, e⟩])[i]? = some (⟨u, .make l⟩ : Event) → tr[i]? = some (⟨u, .make l⟩ : Event) := by
    intro i u l hi
    rcases get_snoc hi with h' | ⟨_, _, h'⟩
    · exact h'
    · exact absurd h'.symm (he.1 l)
  refine ⟨?_, ?_, ?_, ?_, ?_, ?_, ?_, ?_, h.cellR, h.thrR⟩
  · intro i j t1 u w a b hij hi hj hab
    exact (h.ord i j t1 u w a b hij (touch _ _ _ _ hi) (touch _ _ _ _ hj) hab).mono
  · intro l x hx i t1 w a hi hw
    exact (h.cellW l x hx i t1 w a (touch _ _ _ _ hi) hw).mono
  · intro l x hx c hc i t1 hi
    exact (h.cellC l x hx c hc i t1 (touch _ _ _ _ hi)).mono
  · intro c x hx i t1 w a hi hw
    exact (h.cfgW c x hx i t1 w a (touch _ _ _ _ hi) hw).mono
  · intro u c hc i t1 hi
    exact (h.thrC u c hc i t1 (touch _ _ _ _ hi)).mono
  · intro u l hl i t1 hi
    exact (h.thrL u l hl i t1 (make _ _ _ hi)).mono
  · intro i t1 l a hi
    exact h.newL i t1 l a (hi.imp (make _ _ _) (Or.imp (touch _ _ _ _) (touch _ _ _ _)))
  · intro i t1 c a hi
    exact h.newC i t1 c a (hi.imp (touch _ _ _ _) (Or.imp (touch _ _ _ _) (touch _ _ _ _)))

theorem Known.meet {tr : List Event} {t i u l : Nat} (h : tr[i]? = some (⟨u, .make l⟩ : Event)) :
    Known (tr ++ [⟨t, .meet l⟩]) t i :=
  ⟨_, _, get_last _ _, .inr (.made (len_of h) (get_old h) (get_last _ _))⟩

/-- A call begins. -/
theorem ok_enter {tr : List Event} {s : State A B H} (h : Ok tr s) {t : Nat} {p : Pc (A × B)}
    (hc : configsOf (⟨p, .outside⟩ : Thread A B) = [])
    (hl : ∀ l ∈ loggersOf p, l < s.cells.length ∧ ∀ (i u : Nat), tr[i]? = some (⟨u, .make l⟩ : Event) → Known tr t i) :
    Ok tr (s.goTo t ⟨p, .outside⟩) := by
  refine ⟨h.ord, h.cellW, h.cellC, h.cfgW, ?_, ?_, h.newL, h.newC, h.cellR, ?_⟩
  · intro u c hc'
    rw [goTo_thr] at hc'
    split at hc'
    · rw [hc] at hc'; cases hc'
    · exact h.thrC u c hc'
  · intro u l hl'
    rw [goTo_thr] at hl'
    split at hl'
    · next e => subst e; exact (hl l hl').2
    · exact h.thrL u l hl'
  · intro u
    rw [goTo_thr]
    split
    · rw [hc]; exact ⟨fun _ h => absurd h (by simp), fun l hl' => (hl l hl').1⟩
    · exact h.thrR u

/-- Handlers are read. -/
theorem ok_handlers {tr : List Event} {s : State A B H} (h : Ok tr s) {t c : Nat} (hlen : c < s.cfgs.length)
    (hk : ∀ (i u : Nat), tr[i]? = some (⟨u, made c⟩ : Event) → Known tr t i) :
    Ok (tr ++ [⟨t, .touch (.handlers c) false⟩]) s := by
  have touch : ∀ (i u : Nat) (w : Word) (a : Bool), (∀ c, w = .handlers c → a = true) →
      (tr ++ [⟨t, .touch (.handlers c) false⟩])[i]? = some (⟨u, .touch w a⟩ : Event) →
      tr[i]? = some (⟨u, .touch w a⟩ : Event) := by
    intro i u w a hw hi
    rcases get_snoc hi with h' | ⟨_, _, h'⟩
    · exact h'
    · cases h'; cases hw c rfl
  have make : ∀ (i u l : Nat), (tr ++ [⟨t, .touch (.handlers c) false⟩])[i]? = some (⟨u, .make l⟩ : Event) →
      tr[i]? = some (⟨u, .make l⟩ : Event) := by
    intro i u l hi
    rcases get_snoc hi with h' | ⟨_, _, h'⟩
    · exact h'
    · cases h'
  refine ⟨?_, ?_, ?_, ?_, ?_, ?_, ?_, ?_, h.cellR, h.thrR⟩
  · intro i j t1 u w a b hij hi hj hab
    rcases get_snoc hj with hj' | ⟨hj1, hj2, hj3⟩
    · rcases get_snoc hi with hi' | ⟨hi1, _⟩
      · exact (h.ord i j t1 u w a b hij hi' hj' hab).mono
      · exact absurd (len_of hj') (by omega)
    · rcases get_snoc hi with hi' | ⟨hi1, _⟩
      · cases hj3
        rcases hab with rfl | hab
        · rw [hj1]; exact (hk i t1 hi').hb
        · cases hab
      · omega
  · intro l x hx i t1 w a hi hw
    exact (h.cellW l x hx i t1 w a (touch _ _ _ _ (by rcases hw with rfl | rfl <;> simp) hi) hw).mono
  · intro l x hx c hc i t1 hi
    exact (h.cellC l x hx c hc i t1 (touch _ _ _ _ (by simp) hi)).mono
  · intro c x hx i t1 w a hi hw
    exact (h.cfgW c x hx i t1 w a (touch _ _ _ _ (by rcases hw with rfl | rfl <;> simp) hi) hw).mono
  · intro u c hc i t1 hi
    exact (h.thrC u c hc i t1 (touch _ _ _ _ (by simp) hi)).mono
  · intro u l hl i t1 hi
    exact (h.thrL u l hl i t1 (make _ _ _ hi)).mono
  · intro i t1 l a hi
    exact h.newL i t1 l a (hi.imp (make _ _ _) (Or.imp (touch _ _ _ _ (by simp)) (touch _ _ _ _ (by simp))))
  · intro i t1 c' a hi
    rcases hi with hi | hi | hi
    · exact h.newC i t1 c' a (.inl (touch _ _ _ _ (by simp) hi))
    · exact h.newC i t1 c' a (.inr (.inl (touch _ _ _ _ (by simp) hi)))
    · rcases get_snoc hi with h' | ⟨_, _, h'⟩
      · exact h.newC i t1 c' a (.inr (.inr h'))
      · cases h'; exact hlen

/-- Three events in a row. -/
theorem get_snoc3 {tr : List Event} {t u : Nat} {e1 e2 e3 e' : Ev} {i : Nat}
    (h : (tr ++ [⟨t, e1⟩, ⟨t, e2⟩, ⟨t, e3⟩])[i]? = some (⟨u, e'⟩ : Event)) :
    tr[i]? = some (⟨u, e'⟩ : Event) ∨ u = t ∧ (i = tr.length ∧ e' = e1 ∨ i = tr.length + 1 ∧ e' = e2
      ∨ i = tr.length + 2 ∧ e' = e3) := by
  have e : tr ++ [⟨t, e1⟩, ⟨t, e2⟩, ⟨t, e3⟩] = ((tr ++ [⟨t, e1⟩]) ++ [⟨t, e2⟩]) ++ [⟨t, e3⟩] := by simp
  rw [e] at h
  rcases get_snoc h with h | ⟨h1, h2, h3⟩
  · rcases get_snoc h with h | ⟨h1, h2, h3⟩
    · rcases get_snoc h with h | ⟨h1, h2, h3⟩
      · exact .inl h
      · exact .inr ⟨h2, .inl ⟨h1, h3⟩⟩
    · exact .inr ⟨h2, .inr (.inl ⟨by simpa using h1, h3⟩)⟩
  · exact .inr ⟨h2, .inr (.inr ⟨by simpa using h1, h3⟩)⟩

theorem get_third (tr : List Event) (a b c : Event) : (tr ++ [a, b, c])[tr.length + 2]? = some c := by
  rw [List.getElem?_append_right (by omega)]
  simp

theorem mem_snoc3 {α : Type} {xs : List α} {x y : α} {i : Nat} (h : (xs ++ [x])[i]? = some y) :
    xs[i]? = some y ∨ i = xs.length ∧ y = x := by
  rcases Nat.lt_or_ge i xs.length with hi | hi
  · rw [List.getElem?_append_left hi] at h; exact .inl h
  · rw [List.getElem?_append_right hi] at h
    rcases Nat.lt_or_ge (i - xs.length) 1 with h1 | h1
    · have h2 : i - xs.length = 0 := by omega
      rw [h2] at h
      simp only [List.getElem?_cons_zero, Option.some.injEq] at h
      exact .inr ⟨by omega, h.symm⟩
    · rw [List.getElem?_eq_none (by simpa using h1)] at h
      cases h

/-- A logger is made of a pointer that the thread has. -/
theorem ok_newLogger {tr : List Event} {s : State A B H} (h : Ok tr s) {t o k : Nat}
    (hr : o < s.cfgs.length ∧ k < s.cfgs.length)
    (hk : ∀ c, c = o ∨ c = k → ∀ (i u : Nat), tr[i]? = some (⟨u, made c⟩ : Event) → Known tr t i) :
    Ok (tr ++ [⟨t, .touch (.obj s.cells.length) true⟩, ⟨t, .touch (.ctl s.cells.length) true⟩, ⟨t, .make s.cells.length⟩])
      { s with cells := s.cells ++ [⟨o, k, none⟩] } := by
  have last := get_third tr ⟨t, .touch (.obj s.cells.length) true⟩ ⟨t, .touch (.ctl s.cells.length) true⟩
    ⟨t, .make s.cells.length⟩
  refine ⟨?_, ?_, ?_, ?_, ?_, ?_, ?_, ?_, ?_, ?_⟩
  · intro i j t1 u w a b hij hi hj hab
    rcases get_snoc3 hj with hj' | ⟨rfl, hj'⟩
    · rcases get_snoc3 hi with hi' | ⟨rfl, hi'⟩
      · exact (h.ord i j t1 u w a b hij hi' hj' hab).mono
      · exact absurd (len_of hj') (by omega)
    · rcases get_snoc3 hi with hi' | ⟨rfl, hi'⟩
      · exfalso
        rcases hj' with ⟨_, e⟩ | ⟨_, e⟩ | ⟨_, e⟩ <;> cases e
        · exact absurd (h.newL i t1 _ a (.inr (.inl hi'))) (by omega)
        · exact absurd (h.newL i t1 _ a (.inr (.inr hi'))) (by omega)
      · exact .thread hij hi hj
  · intro l x hx i t1 w a hi hw
    rcases mem_snoc3 hx with hx' | ⟨rfl, rfl⟩
    · have hl : l < s.cells.length := (List.getElem?_eq_some_iff.mp hx').1
      rcases get_snoc3 hi with hi' | ⟨_, e⟩
      · exact (h.cellW l x hx' i t1 w a hi' hw).mono
      · exfalso
        rcases e with ⟨_, e⟩ | ⟨_, e⟩ | ⟨_, e⟩ <;> cases e <;> rcases hw with hw | hw <;> cases hw <;> omega
    · rcases get_snoc3 hi with hi' | ⟨rfl, e⟩
      · exfalso
        rcases hw with rfl | rfl
        · exact absurd (h.newL i t1 _ a (.inr (.inl hi'))) (by omega)
        · exact absurd (h.newL i t1 _ a (.inr (.inr hi'))) (by omega)
      · refine ⟨_, _, .inr last, ?_⟩
        rcases e with ⟨e1, e⟩ | ⟨e1, e⟩ | ⟨e1, e⟩
        · exact .inr (.thread (by omega) hi last)
        · exact .inr (.thread (by omega) hi last)
        · cases e
  · intro l x hx c hc i t1 hi
    have hi' : tr[i]? = some (⟨t1, made c⟩ : Event) := by
      rcases get_snoc3 hi with hi' | ⟨_, e⟩
      · exact hi'
      · rcases e with ⟨_, e⟩ | ⟨_, e⟩ | ⟨_, e⟩ <;> cases e
    rcases mem_snoc3 hx with hx' | ⟨rfl, rfl⟩
    · exact (h.cellC l x hx' c hc i t1 hi').mono
    · obtain ⟨j, e, hj, hle⟩ := hk c hc i t1 hi'
      exact ⟨_, _, .inr last, .inr (hle.mono.hb (.thread (by have := len_of hj; omega) (get_old hj) last))⟩
  · intro c x hx i t1 w a hi hw
    rcases get_snoc3 hi with hi' | ⟨_, e⟩
    · exact (h.cfgW c x hx i t1 w a hi' hw).mono
    · exfalso
      rcases e with ⟨_, e⟩ | ⟨_, e⟩ | ⟨_, e⟩ <;> cases e <;> rcases hw with hw | hw <;> cases hw
  · intro u c hc i t1 hi
    rcases get_snoc3 hi with hi' | ⟨_, e⟩
    · exact (h.thrC u c hc i t1 hi').mono
    · rcases e with ⟨_, e⟩ | ⟨_, e⟩ | ⟨_, e⟩ <;> cases e
  · intro u l hl i t1 hi
    rcases get_snoc3 hi with hi' | ⟨_, e⟩
    · exact (h.thrL u l hl i t1 hi').mono
    · rcases e with ⟨_, e⟩ | ⟨_, e⟩ | ⟨_, e⟩ <;> cases e
      exact absurd ((h.thrR u).2 _ hl) (by omega)
  · intro i t1 l a hi
    simp only [List.length_append, List.length_cons, List.length_nil]
    rcases hi with hi | hi | hi <;> rcases get_snoc3 hi with hi' | ⟨_, e⟩
    · exact Nat.lt_succ_of_lt (h.newL i t1 l a (.inl hi'))
    · rcases e with ⟨_, e⟩ | ⟨_, e⟩ | ⟨_, e⟩ <;> cases e; omega
    · exact Nat.lt_succ_of_lt (h.newL i t1 l a (.inr (.inl hi')))
    · rcases e with ⟨_, e⟩ | ⟨_, e⟩ | ⟨_, e⟩ <;> cases e; omega
    · exact Nat.lt_succ_of_lt (h.newL i t1 l a (.inr (.inr hi')))
    · rcases e with ⟨_, e⟩ | ⟨_, e⟩ | ⟨_, e⟩ <;> cases e; omega
  · intro i t1 c a hi
    refine h.newC i t1 c a ?_
    rcases hi with hi | hi | hi <;> rcases get_snoc3 hi with hi' | ⟨_, e⟩
    · exact .inl hi'
    · rcases e with ⟨_, e⟩ | ⟨_, e⟩ | ⟨_, e⟩ <;> cases e
    · exact .inr (.inl hi')
    · rcases e with ⟨_, e⟩ | ⟨_, e⟩ | ⟨_, e⟩ <;> cases e
    · exact .inr (.inr hi')
    · rcases e with ⟨_, e⟩ | ⟨_, e⟩ | ⟨_, e⟩ <;> cases e
  · intro l x hx
    rcases mem_snoc3 hx with hx' | ⟨rfl, rfl⟩
    · exact h.cellR l x hx'
    · exact hr
  · intro u
    refine ⟨(h.thrR u).1, fun l hl => ?_⟩
    have := (h.thrR u).2 l hl
    simp only [List.length_append, List.length_cons, List.length_nil]
    omega

/-- A configuration is made. -/
theorem ok_newConfig {tr : List Event} {s : State A B H} (h : Ok tr s) {t : Nat} {y : Cfg A B H} (hy : y.lock = none) :
    Ok (tr ++ [⟨t, .touch (.fa s.cfgs.length) true⟩, ⟨t, .touch (.fb s.cfgs.length) true⟩,
        ⟨t, .touch (.handlers s.cfgs.length) true⟩])
      { s with cfgs := s.cfgs ++ [y] } := by
  have last := get_third tr ⟨t, .touch (.fa s.cfgs.length) true⟩ ⟨t, .touch (.fb s.cfgs.length) true⟩
    ⟨t, .touch (.handlers s.cfgs.length) true⟩
  have old : ∀ (i u c : Nat), c < s.cfgs.length → (tr ++ [⟨t, .touch (.fa s.cfgs.length) true⟩,
      ⟨t, .touch (.fb s.cfgs.length) true⟩, ⟨t, .touch (.handlers s.cfgs.length) true⟩])[i]? = some (⟨u, made c⟩ : Event) →
      tr[i]? = some (⟨u, made c⟩ : Event) := by
    intro i u c hc hi
    rcases get_snoc3 hi with hi' | ⟨_, e⟩
    · exact hi'
    · rcases e with ⟨_, e⟩ | ⟨_, e⟩ | ⟨_, e⟩ <;> cases e; omega
  refine ⟨?_, ?_, ?_, ?_, ?_, ?_, ?_, ?_, ?_, ?_⟩
  · intro i j t1 u w a b hij hi hj hab
    rcases get_snoc3 hj with hj' | ⟨rfl, hj'⟩
    · rcases get_snoc3 hi with hi' | ⟨rfl, hi'⟩
      · exact (h.ord i j t1 u w a b hij hi' hj' hab).mono
      · exact absurd (len_of hj') (by omega)
    · rcases get_snoc3 hi with hi' | ⟨rfl, hi'⟩
      · exfalso
        rcases hj' with ⟨_, e⟩ | ⟨_, e⟩ | ⟨_, e⟩ <;> cases e
        · exact absurd (h.newC i t1 _ a (.inl hi')) (by omega)
        · exact absurd (h.newC i t1 _ a (.inr (.inl hi'))) (by omega)
        · exact absurd (h.newC i t1 _ a (.inr (.inr hi'))) (by omega)
      · exact .thread hij hi hj
  · intro l x hx i t1 w a hi hw
    rcases get_snoc3 hi with hi' | ⟨_, e⟩
    · exact (h.cellW l x hx i t1 w a hi' hw).mono
    · exfalso
      rcases e with ⟨_, e⟩ | ⟨_, e⟩ | ⟨_, e⟩ <;> cases e <;> rcases hw with hw | hw <;> cases hw
  · intro l x hx c hc i t1 hi
    have hlt : c < s.cfgs.length := by
      rcases hc with rfl | rfl
      · exact (h.cellR l x hx).1
      · exact (h.cellR l x hx).2
    exact (h.cellC l x hx c hc i t1 (old i t1 c hlt hi)).mono
  · intro c x hx i t1 w a hi hw
    rcases mem_snoc3 hx with hx' | ⟨rfl, rfl⟩
    · have hl : c < s.cfgs.length := (List.getElem?_eq_some_iff.mp hx').1
      rcases get_snoc3 hi with hi' | ⟨_, e⟩
      · exact (h.cfgW c x hx' i t1 w a hi' hw).mono
      · exfalso
        rcases e with ⟨_, e⟩ | ⟨_, e⟩ | ⟨_, e⟩ <;> cases e <;> rcases hw with hw | hw <;> cases hw <;> omega
    · rw [hy]
      rcases get_snoc3 hi with hi' | ⟨rfl, e⟩
      · exfalso
        rcases hw with rfl | rfl
        · exact absurd (h.newC i t1 _ a (.inl hi')) (by omega)
        · exact absurd (h.newC i t1 _ a (.inr (.inl hi'))) (by omega)
      · refine ⟨_, _, .inr last, ?_⟩
        rcases e with ⟨e1, e⟩ | ⟨e1, e⟩ | ⟨e1, e⟩
        · exact .inr (.thread (by omega) hi last)
        · exact .inr (.thread (by omega) hi last)
        · exact .inl e1
  · intro u c hc i t1 hi
    exact (h.thrC u c hc i t1 (old i t1 c ((h.thrR u).1 c hc) hi)).mono
  · intro u l hl i t1 hi
    rcases get_snoc3 hi with hi' | ⟨_, e⟩
    · exact (h.thrL u l hl i t1 hi').mono
    · rcases e with ⟨_, e⟩ | ⟨_, e⟩ | ⟨_, e⟩ <;> cases e
  · intro i t1 l a hi
    refine h.newL i t1 l a ?_
    rcases hi with hi | hi | hi <;> rcases get_snoc3 hi with hi' | ⟨_, e⟩
    · exact .inl hi'
    · rcases e with ⟨_, e⟩ | ⟨_, e⟩ | ⟨_, e⟩ <;> cases e
    · exact .inr (.inl hi')
    · rcases e with ⟨_, e⟩ | ⟨_, e⟩ | ⟨_, e⟩ <;> cases e
    · exact .inr (.inr hi')
    · rcases e with ⟨_, e⟩ | ⟨_, e⟩ | ⟨_, e⟩ <;> cases e
  · intro i t1 c a hi
    simp only [List.length_append, List.length_cons, List.length_nil]
    rcases hi with hi | hi | hi <;> rcases get_snoc3 hi with hi' | ⟨_, e⟩
    · exact Nat.lt_succ_of_lt (h.newC i t1 c a (.inl hi'))
    · rcases e with ⟨_, e⟩ | ⟨_, e⟩ | ⟨_, e⟩ <;> cases e; omega
    · exact Nat.lt_succ_of_lt (h.newC i t1 c a (.inr (.inl hi')))
    · rcases e with ⟨_, e⟩ | ⟨_, e⟩ | ⟨_, e⟩ <;> cases e; omega
    · exact Nat.lt_succ_of_lt (h.newC i t1 c a (.inr (.inr hi')))
    · rcases e with ⟨_, e⟩ | ⟨_, e⟩ | ⟨_, e⟩ <;> cases e; omega
  · intro l x hx
    have := h.cellR l x hx
    simp only [List.length_append, List.length_cons, List.length_nil]
    omega
  · intro u
    refine ⟨fun c hc => ?_, (h.thrR u).2⟩
    have := (h.thrR u).1 c hc
    simp only [List.length_append, List.length_cons, List.length_nil]
    omega

end Blackhole.Race
