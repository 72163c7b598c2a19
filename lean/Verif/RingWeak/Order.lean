import Verif.RingWeak.Spec
import Verif.RingWeak.Lemmas

/-! # The queue on weak memory: what happens before what -/

namespace Blackhole.RingWeak

open Ring (cell upd upd_same upd_ne cell_eq Inv PPc CPc)

variable {E : Type} {cap : Nat} {policy : Async.Policy} {tr : List Event}

theorem at_snoc {α : Type} {l : List α} {a x : α} {i : Nat} (h : (l ++ [a])[i]? = some x) :
    (i < l.length ∧ l[i]? = some x) ∨ (i = l.length ∧ x = a) := by
  rcases Nat.lt_or_ge i l.length with hi | hi
  · rw [List.getElem?_append_left hi] at h
    exact .inl ⟨hi, h⟩
  · rw [List.getElem?_append_right hi] at h
    rcases Nat.eq_zero_or_pos (i - l.length) with h0 | h0
    · rw [h0] at h
      simp only [List.getElem?_cons_zero, Option.some.injEq] at h
      exact .inr ⟨by omega, h.symm⟩
    · rw [List.getElem?_eq_none (by simp only [List.length_cons, List.length_nil]; omega)] at h
      cases h

theorem keep {α : Type} {l : List α} {x : α} {i : Nat} (a : α) (h : l[i]? = some x) : (l ++ [a])[i]? = some x := by
  rw [List.getElem?_append_left (List.getElem?_eq_some_iff.1 h).1]
  exact h

theorem last {α : Type} (l : List α) (a : α) : (l ++ [a])[l.length]? = some a := by simp

theorem HB.snoc {i j : Nat} (h : HB tr i j) (e : Event) : HB (tr ++ [e]) i j := by
  induction h with
  | thread h hi hj => exact .thread h (keep e hi) (keep e hj)
  | read h hi hj => exact .read h (keep e hi) (keep e hj)
  | trans _ _ ih1 ih2 => exact .trans ih1 ih2

/-- All accesses to the contents happened before what the thread does next. -/
def Known (tr : List Event) (t : Thread) (c : Nat) : Prop :=
  ∀ (i : Nat) u, tr[i]? = some (⟨u, .touch c⟩ : Event) → ∃ (j : Nat) (e : Access), tr[j]? = some (⟨t, e⟩ : Event) ∧ (i = j ∨ HB tr i j)

/-- All accesses to the contents happened before the store of this value. -/
def Pub (tr : List Event) (c v : Nat) : Prop :=
  ∀ (i : Nat) u, tr[i]? = some (⟨u, .touch c⟩ : Event) → ∃ (j : Nat) (t : Thread), tr[j]? = some (⟨t, .store c v⟩ : Event) ∧ HB tr i j

/-- The thread has loaded the value. -/
def Loaded (tr : List Event) (t : Thread) (c v : Nat) : Prop := ∃ j : Nat, tr[j]? = some (⟨t, .load c v⟩ : Event)

def PKnows (tr : List Event) (cap p : Nat) : PPc E → Prop
  | .seen _ pos n => n = pos → Loaded tr (.producer p) (pos % cap) pos
  | .claimed _ q => Known tr (.producer p) (q % cap)
  | .writing _ q => Known tr (.producer p) (q % cap)
  | .written _ q => Known tr (.producer p) (q % cap)
  | _ => True

def CKnows (tr : List Event) (cap : Nat) : CPc E → Prop
  | .seen pos n => n = pos + 1 → Loaded tr .worker (pos % cap) (pos + 1)
  | .taken q => Known tr .worker (q % cap)
  | .reading q => Known tr .worker (q % cap)
  | .copied q _ => Known tr .worker (q % cap)
  | _ => True

structure Ordered (cap : Nat) (r : Ring.State E) (tr : List Event) : Prop where
  small : ∀ (i : Nat) t c v, tr[i]? = some (⟨t, .load c v⟩ : Event) → v ≤ r.seq c
  stored : ∀ (i : Nat) t c v, tr[i]? = some (⟨t, .store c v⟩ : Event) → v ≤ r.seq c
  once : ∀ (i j : Nat) t u c v w, i < j → tr[i]? = some (⟨t, .store c v⟩ : Event) → tr[j]? = some (⟨u, .store c w⟩ : Event) → v < w
  after : ∀ (i j : Nat) t u c v, tr[i]? = some (⟨t, .store c v⟩ : Event) → tr[j]? = some (⟨u, .load c v⟩ : Event) → i < j
  free : ∀ q, r.tail ≤ q → q < r.base + cap → Pub tr (q % cap) q
  used : ∀ q, r.head ≤ q → q < r.tail → r.seq (q % cap) = q + 1 → Pub tr (q % cap) (q + 1)
  prod : ∀ p, PKnows tr cap p (r.producers p)
  cons : CKnows tr cap r.consumer
  ord : ∀ (i j : Nat) t u c, i < j → tr[i]? = some (⟨t, .touch c⟩ : Event) → tr[j]? = some (⟨u, .touch c⟩ : Event) → HB tr i j

theorem ord_init : Ordered cap (Ring.State.init : Ring.State E) [] where
  small := fun i t c v h => by simp at h
  stored := fun i t c v h => by simp at h
  once := fun i j t u c v w _ h => by simp at h
  after := fun i j t u c v h => by simp at h
  free := fun q _ _ i u h => by simp at h
  used := fun q _ _ _ i u h => by simp at h
  prod := fun _ => trivial
  cons := trivial
  ord := fun i j t u c _ h => by simp at h

/-! ## One more access -/

theorem Known.snoc {t : Thread} {c : Nat} (h : Known tr t c) {e : Event} (he : e.access ≠ .touch c) : Known (tr ++ [e]) t c := by
  intro i u hi
  rcases at_snoc hi with ⟨-, hi⟩ | ⟨-, rfl⟩
  · obtain ⟨j, e', hj, hij⟩ := h i u hi
    exact ⟨j, e', keep e hj, hij.imp id (·.snoc e)⟩
  · exact absurd rfl he

theorem Pub.snoc {c v : Nat} (h : Pub tr c v) {e : Event} (he : e.access ≠ .touch c) : Pub (tr ++ [e]) c v := by
  intro i u hi
  rcases at_snoc hi with ⟨-, hi⟩ | ⟨-, rfl⟩
  · obtain ⟨j, t, hj, hij⟩ := h i u hi
    exact ⟨j, t, keep e hj, hij.snoc e⟩
  · exact absurd rfl he

theorem Loaded.snoc {t : Thread} {c v : Nat} (h : Loaded tr t c v) (e : Event) : Loaded (tr ++ [e]) t c v := by
  obtain ⟨j, hj⟩ := h
  exact ⟨j, keep e hj⟩

theorem Known.touch {t : Thread} {c : Nat} (h : Known tr t c) : Known (tr ++ [⟨t, .touch c⟩]) t c := by
  intro i u hi
  rcases at_snoc hi with ⟨-, hi⟩ | ⟨rfl, he⟩
  · obtain ⟨j, e', hj, hij⟩ := h i u hi
    exact ⟨j, e', keep _ hj, hij.imp id (·.snoc _)⟩
  · exact ⟨tr.length, .touch c, last _ _, .inl rfl⟩

/-- What is known happens before the next access of the thread. -/
theorem Known.before {t : Thread} {c : Nat} (h : Known tr t c) (a : Access) {i : Nat} {u : Thread}
    (hi : tr[i]? = some (⟨u, .touch c⟩ : Event)) : HB (tr ++ [⟨t, a⟩]) i tr.length := by
  obtain ⟨j, e', hj, hij⟩ := h i u hi
  have hlt : j < tr.length := (List.getElem?_eq_some_iff.1 hj).1
  have hjl : HB (tr ++ [⟨t, a⟩]) j tr.length := .thread hlt (keep _ hj) (last _ _)
  rcases hij with rfl | hij
  · exact hjl
  · exact .trans (hij.snoc _) hjl

theorem Known.store {t : Thread} {c : Nat} (h : Known tr t c) (v : Nat) : Pub (tr ++ [⟨t, .store c v⟩]) c v := by
  intro i u hi
  rcases at_snoc hi with ⟨-, hi⟩ | ⟨-, he⟩
  · exact ⟨tr.length, t, last _ _, h.before _ hi⟩
  · cases he

theorem Pub.known {r : Ring.State E} (o : Ordered cap r tr) {t : Thread} {c v : Nat} (h : Pub tr c v) (hl : Loaded tr t c v) :
    Known tr t c := by
  intro i u hi
  obtain ⟨j, w, hj, hij⟩ := h i u hi
  obtain ⟨l, hl⟩ := hl
  exact ⟨l, _, hl, .inr (.trans hij (.read (o.after _ _ _ _ _ _ hj hl) hj hl))⟩

theorem PKnows.snoc {p : Nat} {x : PPc E} (h : PKnows tr cap p x) {e : Event}
    (he : ∀ q, x.place.map (·.2) = some q → e.access ≠ .touch (q % cap)) : PKnows (tr ++ [e]) cap p x := by
  cases x <;> simp only [PKnows] at h ⊢
  · exact fun hn => (h hn).snoc e
  all_goals exact h.snoc (he _ rfl)

theorem CKnows.snoc {y : CPc E} (h : CKnows tr cap y) {e : Event}
    (he : ∀ q, y = .taken q ∨ y = .reading q ∨ (∃ x, y = .copied q x) → e.access ≠ .touch (q % cap)) :
    CKnows (tr ++ [e]) cap y := by
  cases y <;> simp only [CKnows] at h ⊢
  · exact fun hn => (h hn).snoc e
  · exact h.snoc (he _ (.inl rfl))
  · exact h.snoc (he _ (.inr (.inl rfl)))
  · exact h.snoc (he _ (.inr (.inr ⟨_, rfl⟩)))

/-! ## The steps -/

/-- Steps that change no word of the queue and access nothing. -/
theorem ord_quiet {r r' : Ring.State E} (o : Ordered cap r tr) (h1 : r'.seq = r.seq) (h2 : r'.tail = r.tail) (h3 : r'.head = r.head)
    (h4 : r'.base = r.base) (hp : ∀ p, PKnows tr cap p (r'.producers p)) (hc : CKnows tr cap r'.consumer) : Ordered cap r' tr where
  small := by rw [h1]; exact o.small
  stored := by rw [h1]; exact o.stored
  once := o.once
  after := o.after
  free := by rw [h2, h4]; exact o.free
  used := by rw [h1, h2, h3]; exact o.used
  prod := hp
  cons := hc
  ord := o.ord

theorem prod_go {r : Ring.State E} (hp : ∀ p, PKnows tr cap p (r.producers p)) {p : Nat} {x : PPc E} (hx : PKnows tr cap p x) :
    ∀ q, PKnows tr cap q (upd r.producers p x q) := by
  intro q
  by_cases hq : q = p
  · subst hq; rw [upd_same]; exact hx
  · rw [upd_ne _ _ hq]; exact hp q

/-- A load of a sequence number. -/
theorem ord_load {r : Ring.State E} (o : Ordered cap r tr) {t : Thread} {c v : Nat} (hv : v ≤ r.seq c) :
    Ordered cap r (tr ++ [⟨t, .load c v⟩]) where
  small := fun i u d w h => by
    rcases at_snoc h with ⟨-, h⟩ | ⟨-, h⟩
    · exact o.small i u d w h
    · cases h; exact hv
  stored := fun i u d w h => by
    rcases at_snoc h with ⟨-, h⟩ | ⟨-, h⟩
    · exact o.stored i u d w h
    · cases h
  once := fun i j t u c v w hij h1 h2 => by
    rcases at_snoc h1 with ⟨-, h1⟩ | ⟨-, h1⟩ <;> rcases at_snoc h2 with ⟨-, h2⟩ | ⟨-, h2⟩
    · exact o.once i j t u c v w hij h1 h2
    · cases h2
    · cases h1
    · cases h1
  after := fun i j t u c v h1 h2 => by
    rcases at_snoc h1 with ⟨hi, h1⟩ | ⟨-, h1⟩ <;> rcases at_snoc h2 with ⟨-, h2⟩ | ⟨hj, h2⟩
    · exact o.after i j t u c v h1 h2
    · omega
    · cases h1
    · cases h1
  free := fun q h1 h2 => (o.free q h1 h2).snoc (by simp)
  used := fun q h1 h2 h3 => (o.used q h1 h2 h3).snoc (by simp)
  prod := fun p => (o.prod p).snoc (by simp)
  cons := o.cons.snoc (by simp)
  ord := fun i j t u c hij h1 h2 => by
    rcases at_snoc h1 with ⟨-, h1⟩ | ⟨-, h1⟩ <;> rcases at_snoc h2 with ⟨-, h2⟩ | ⟨-, h2⟩
    · exact (o.ord i j t u c hij h1 h2).snoc _
    · cases h2
    · cases h1
    · cases h1

/-- An access to the contents of a cell by the thread that owns it. -/
theorem ord_touch {r r' : Ring.State E} (o : Ordered cap r tr) {t : Thread} {c : Nat} (hk : Known tr t c)
    (h1 : r'.seq = r.seq) (h2 : r'.tail = r.tail) (h3 : r'.head = r.head) (h4 : r'.base = r.base)
    (hf : ∀ q, r.tail ≤ q → q < r.base + cap → q % cap ≠ c)
    (hu : ∀ q, r.head ≤ q → q < r.tail → r.seq (q % cap) = q + 1 → q % cap ≠ c)
    (hp : ∀ p, PKnows (tr ++ [⟨t, .touch c⟩]) cap p (r'.producers p)) (hc : CKnows (tr ++ [⟨t, .touch c⟩]) cap r'.consumer) :
    Ordered cap r' (tr ++ [⟨t, .touch c⟩]) where
  small := fun i u d w h => by
    rw [h1]
    rcases at_snoc h with ⟨-, h⟩ | ⟨-, h⟩
    · exact o.small i u d w h
    · cases h
  stored := fun i u d w h => by
    rw [h1]
    rcases at_snoc h with ⟨-, h⟩ | ⟨-, h⟩
    · exact o.stored i u d w h
    · cases h
  once := fun i j t u c v w hij h1 h2 => by
    rcases at_snoc h1 with ⟨-, h1⟩ | ⟨-, h1⟩ <;> rcases at_snoc h2 with ⟨-, h2⟩ | ⟨-, h2⟩
    · exact o.once i j t u c v w hij h1 h2
    · cases h2
    · cases h1
    · cases h1
  after := fun i j t u c v h1 h2 => by
    rcases at_snoc h1 with ⟨hi, h1⟩ | ⟨-, h1⟩ <;> rcases at_snoc h2 with ⟨-, h2⟩ | ⟨hj, h2⟩
    · exact o.after i j t u c v h1 h2
    · cases h2
    · cases h1
    · cases h1
  free := fun q g1 g2 => by
    rw [h2] at g1; rw [h4] at g2
    exact (o.free q g1 g2).snoc (fun e => hf q g1 g2 (by cases e; rfl))
  used := fun q g1 g2 g3 => by
    rw [h3] at g1; rw [h2] at g2; rw [h1] at g3
    exact (o.used q g1 g2 g3).snoc (fun e => hu q g1 g2 g3 (by cases e; rfl))
  prod := hp
  cons := hc
  ord := fun i j u w d hij g1 g2 => by
    rcases at_snoc g1 with ⟨hi, g1⟩ | ⟨hi, g1⟩ <;> rcases at_snoc g2 with ⟨hj, g2⟩ | ⟨hj, g2⟩
    · exact (o.ord i j u w d hij g1 g2).snoc _
    · cases g2
      subst hj
      exact hk.before _ g1
    · omega
    · omega

/-- A store to the sequence number of a cell by the thread that owns it. -/
theorem ord_store {r r' : Ring.State E} (o : Ordered cap r tr) {t : Thread} {c v : Nat} (hv : r.seq c < v)
    (h1 : r'.seq = upd r.seq c v)
    (hf : ∀ q, r'.tail ≤ q → q < r'.base + cap → Pub (tr ++ [⟨t, .store c v⟩]) (q % cap) q)
    (hu : ∀ q, r'.head ≤ q → q < r'.tail → r'.seq (q % cap) = q + 1 → Pub (tr ++ [⟨t, .store c v⟩]) (q % cap) (q + 1))
    (hp : ∀ p, PKnows tr cap p (r'.producers p)) (hc : CKnows tr cap r'.consumer) :
    Ordered cap r' (tr ++ [⟨t, .store c v⟩]) := by
  have up : ∀ x, r.seq x ≤ upd r.seq c v x := by
    intro x
    by_cases hx : x = c
    · subst hx; rw [upd_same]; omega
    · rw [upd_ne _ _ hx]; exact Nat.le_refl _
  exact {
    small := fun i u d w h => by
      rw [h1]
      rcases at_snoc h with ⟨-, h⟩ | ⟨-, h⟩
      · exact Nat.le_trans (o.small i u d w h) (up d)
      · cases h
    stored := fun i u d w h => by
      rw [h1]
      rcases at_snoc h with ⟨-, h⟩ | ⟨-, h⟩
      · exact Nat.le_trans (o.stored i u d w h) (up d)
      · cases h; rw [upd_same]; exact Nat.le_refl _
    once := fun i j t' u c' v' w hij g1 g2 => by
      rcases at_snoc g1 with ⟨hi, g1⟩ | ⟨hi, g1⟩ <;> rcases at_snoc g2 with ⟨hj, g2⟩ | ⟨hj, g2⟩
      · exact o.once i j _ _ _ _ _ hij g1 g2
      · cases g2
        have := o.stored _ _ _ _ g1
        omega
      · omega
      · omega
    after := fun i j t' u c' v' g1 g2 => by
      rcases at_snoc g1 with ⟨hi, g1⟩ | ⟨hi, g1⟩ <;> rcases at_snoc g2 with ⟨hj, g2⟩ | ⟨hj, g2⟩
      · exact o.after i j _ _ _ _ g1 g2
      · omega
      · cases g1
        have := o.small _ _ _ _ g2
        omega
      · cases g2
    free := hf
    used := hu
    prod := fun p => (hp p).snoc (by simp)
    cons := hc.snoc (by simp)
    ord := fun i j u w d hij g1 g2 => by
      rcases at_snoc g1 with ⟨hi, g1⟩ | ⟨hi, g1⟩ <;> rcases at_snoc g2 with ⟨hj, g2⟩ | ⟨hj, g2⟩
      · exact (o.ord i j u w d hij g1 g2).snoc _
      · cases g2
      · cases g1
      · cases g1 }

end Blackhole.RingWeak
