import Verif.PackLife.Model

/-! # Properties of packs that are used for several calls: C105 -/

namespace Blackhole.PackLife

/-! ## Specification -/

/-- The contents of these lists, all of which are alive. -/
def Holds (s : St) (os : List Nat) (xs : List AttrList) : Prop := os.map s.lists = xs.map some

/-- What the calls with pack `p` in a history left in it: the lists of the wrappers of each call and of the scopes that were open
at that moment. -/
inductive Left (p : Nat) : St → List Op → List Nat → Prop
  | nil {s} : Left p s [] []
  | log {s s' out chain ops os} : s.step (.log p chain) = .ok (s', out) → Left p s' ops os →
      Left p s (.log p chain :: ops) (chain ++ s.scopes ++ os)
  | other {s s' op out ops os} : (∀ chain, op ≠ .log p chain) → (∀ own, op ≠ .pack p own) → s.step op = .ok (s', out) →
      Left p s' ops os → Left p s (op :: ops) os

/-! ## Lemmas -/

theorem read_iff (s : St) (os : List Nat) (xs : List AttrList) : s.read os = .ok xs ↔ Holds s os xs := by
  unfold Holds
  induction os generalizing xs with
  | nil => cases xs <;> simp [St.read]
  | cons o os ih =>
    unfold St.read
    cases ho : s.lists o with
    | none => cases xs <;> simp [ho]
    | some x =>
      simp only
      cases hr : s.read os with
      | error e =>
        cases xs with
        | nil => simp
        | cons y ys =>
          simp only [reduceCtorEq, false_iff, List.map_cons, List.cons.injEq, not_and]
          intro _ h
          rw [← ih] at h
          rw [hr] at h; cases h
      | ok ys =>
        cases xs with
        | nil => simp
        | cons y zs =>
          simp only [Except.ok.injEq, List.cons.injEq, List.map_cons, ho, Option.some.injEq]
          rw [← ih zs, hr, Except.ok.injEq]

theorem read_error (s : St) (os : List Nat) (e : UB) (h : s.read os = .error e) :
    e = .dangling ∧ ∃ o ∈ os, s.lists o = none := by
  induction os with
  | nil => cases h
  | cons o os ih =>
    unfold St.read at h
    cases ho : s.lists o with
    | none => rw [ho] at h; cases h; exact ⟨rfl, o, by simp, ho⟩
    | some x =>
      rw [ho] at h
      simp only at h
      cases hr : s.read os with
      | ok ys => rw [hr] at h; cases h
      | error e' =>
        rw [hr] at h
        cases h
        obtain ⟨h1, o', h2, h3⟩ := ih hr
        exact ⟨h1, o', List.mem_cons_of_mem _ h2, h3⟩

theorem left_packs {p : Nat} {s : St} {ops : List Op} {os : List Nat} (h : Left p s ops os) :
    ∃ s', s.run ops = .ok s' ∧ s'.packs p = s.packs p ++ os := by
  induction h with
  | nil => exact ⟨_, rfl, by simp⟩
  | @log s s' out chain ops os hs _ ih =>
    obtain ⟨s2, h1, h2⟩ := ih
    refine ⟨s2, by simp only [St.run, hs]; exact h1, ?_⟩
    rw [h2]
    simp only [St.step] at hs
    split at hs
    · cases hs
    · cases hs
      simp [put, St.grow]
  | @other s s' op out ops os hl hp hs _ ih =>
    obtain ⟨s2, h1, h2⟩ := ih
    refine ⟨s2, by simp only [St.run, hs]; exact h1, ?_⟩
    rw [h2]
    cases op with
    | log q chain =>
      simp only [St.step] at hs
      split at hs
      · cases hs
      · cases hs
        have : p ≠ q := by rintro rfl; exact hl chain rfl
        simp [put, this]
    | pack q own =>
      cases hs
      have : p ≠ q := by rintro rfl; exact hp own rfl
      simp [put, this]
    | close =>
      simp only [St.step] at hs
      split at hs <;> cases hs
      rfl
    | facade own chain =>
      simp only [St.step] at hs
      split at hs <;> cases hs
      rfl
    | _ => cases hs; rfl

theorem log_ok {s : St} {p : Nat} {chain : List Nat} {xs : List AttrList} (h : Holds s (s.grow chain (s.packs p)) xs) :
    s.step (.log p chain) = .ok ({ s with packs := put s.packs p (s.grow chain (s.packs p)) }, some xs) := by
  simp only [St.step, (read_iff _ _ _).2 h]

/-! ## C105 -/

/-- **Every call with a pack, whatever happened before.** The pack was made with the lists `own`, and the calls with it so far
left `earlier` in it. The handlers see the contents of `own`, then of `earlier`, then the attributes of this call; and the call
is defined exactly if all these lists are alive. -/
theorem C105_call (s : St) (p : Nat) (own : List Nat) (ops : List Op) (earlier : List Nat)
    (h : Left p (⟨s.lists, s.next, s.scopes, put s.packs p own⟩) ops earlier) (chain : List Nat) :
    ∃ s', s.run (.pack p own :: ops) = .ok s' ∧
      (∀ xs, (∃ s'', s'.step (.log p chain) = .ok (s'', some xs)) ↔ Holds s' (own ++ earlier ++ chain ++ s'.scopes) xs) ∧
      ((∃ o ∈ own ++ earlier ++ chain ++ s'.scopes, s'.lists o = none) ↔ s'.step (.log p chain) = .error .dangling) := by
  obtain ⟨s', h1, h2⟩ := left_packs h
  simp only [put, if_true] at h2
  refine ⟨s', by simp only [St.run, St.step]; exact h1, ?_⟩
  have hg : s'.grow chain (s'.packs p) = own ++ earlier ++ chain ++ s'.scopes := by rw [St.grow, h2]
  constructor
  · intro xs
    rw [← read_iff]
    simp only [St.step, hg]
    cases hr : s'.read (own ++ earlier ++ chain ++ s'.scopes) with
    | error e => simp
    | ok ys => simp
  · simp only [St.step, hg]
    cases hr : s'.read (own ++ earlier ++ chain ++ s'.scopes) with
    | error e =>
      obtain ⟨rfl, ho⟩ := read_error _ _ _ hr
      simp only [iff_true]
      exact ho
    | ok ys =>
      simp only [reduceCtorEq, iff_false, not_exists, not_and]
      intro o ho hn
      have := (read_iff _ _ _).1 hr
      unfold Holds at this
      have hm : none ∈ (own ++ earlier ++ chain ++ s'.scopes).map s'.lists := by
        rw [← hn]; exact List.mem_map_of_mem ho
      rw [this] at hm
      simp at hm

/-- **A pack that is used once**, as wanted: the attributes of the call, of the wrappers and of the scopes, nothing else. -/
theorem C105_once_partial (s : St) (p : Nat) (own chain : List Nat) (xs ys zs : List AttrList) (hx : Holds s own xs)
    (hy : Holds s chain ys) (hz : Holds s s.scopes zs) :
    ∃ s' s'', s.step (.pack p own) = .ok (s', none) ∧ s'.step (.log p chain) = .ok (s'', some (xs ++ ys ++ zs)) := by
  refine ⟨{ s with packs := put s.packs p own }, _, rfl, log_ok ?_⟩
  unfold Holds at *
  simp only [St.grow, put, if_true, List.map_append, hx, hy, hz]

/-- **The facade** makes a pack for every call: what the handlers see never depends on earlier calls, and nothing is left behind. -/
theorem C105_facade (s : St) (own chain : List Nat) (xs ys zs : List AttrList) (hx : Holds s own xs)
    (hy : Holds s chain ys) (hz : Holds s s.scopes zs) : s.step (.facade own chain) = .ok (s, some (xs ++ ys ++ zs)) := by
  have hr : s.read (own ++ chain ++ s.scopes) = .ok (xs ++ ys ++ zs) := by
    rw [read_iff]
    unfold Holds at *
    simp only [List.map_append, hx, hy, hz]
  simp only [St.step, St.grow]
  rw [hr]

/-- **The second call repeats** the attributes of the wrappers and scopes of the first. -/
theorem C105_fails_twice (s : St) (p : Nat) (own chain : List Nat) (xs ys zs : List AttrList) (hx : Holds s own xs)
    (hy : Holds s chain ys) (hz : Holds s s.scopes zs) :
    ∃ s1 s2 s3, s.step (.pack p own) = .ok (s1, none) ∧ s1.step (.log p chain) = .ok (s2, some (xs ++ ys ++ zs)) ∧
      s2.step (.log p chain) = .ok (s3, some (xs ++ ys ++ zs ++ ys ++ zs)) := by
  refine ⟨{ s with packs := put s.packs p own }, _, _, rfl, log_ok ?_, log_ok ?_⟩
  · unfold Holds at *
    simp only [St.grow, put, if_true, List.map_append, hx, hy, hz]
  · unfold Holds at *
    simp only [St.grow, put, if_true, List.map_append, hx, hy, hz]

/-- **A pack outlives a scope**: the call after the scope was closed reads memory that is gone, whatever the pack and the scope
held. -/
theorem C105_fails_scope (s : St) (p : Nat) (own chain chain' : List Nat) (attrs : AttrList) (xs ys zs : List AttrList)
    (hx : Holds s own xs) (hy : Holds s chain ys) (hz : Holds s s.scopes zs) (hn : ∀ o ∈ own ++ chain ++ s.scopes, o ≠ s.next) :
    ∃ s1 s2 s3 s4, s.step (.pack p own) = .ok (s1, none) ∧ s1.step (.open attrs) = .ok (s2, none) ∧
      s2.step (.log p chain) = .ok (s3, some (xs ++ ys ++ attrs :: zs)) ∧ s3.step .close = .ok (s4, none) ∧
      s4.step (.log p chain') = .error .dangling := by
  have keep : ∀ os xs, (∀ o ∈ os, o ≠ s.next) → Holds s os xs → os.map (put s.lists s.next (some attrs)) = xs.map some := by
    intro os xs ho h
    unfold Holds at h
    rw [← h]
    apply List.map_congr_left
    intro o hm
    simp [put, ho o hm]
  have k1 := keep own xs (fun o ho => hn o (by simp [ho])) hx
  have k2 := keep chain ys (fun o ho => hn o (by simp [ho])) hy
  have k3 := keep s.scopes zs (fun o ho => hn o (by simp [ho])) hz
  have hr : (⟨put s.lists s.next (some attrs), s.next + 1, s.next :: s.scopes, put s.packs p own⟩ : St).read
      (own ++ chain ++ s.next :: s.scopes) = .ok (xs ++ ys ++ attrs :: zs) := by
    rw [read_iff]
    unfold Holds
    simp only [List.map_append, List.map_cons, k1, k2, k3]
    simp [put]
  let s2 : St := ⟨put s.lists s.next (some attrs), s.next + 1, s.next :: s.scopes, put s.packs p own⟩
  let s3 : St := { s2 with packs := put s2.packs p (own ++ chain ++ s.next :: s.scopes) }
  let s4 : St := { s3 with lists := put s3.lists s.next none, scopes := s.scopes }
  refine ⟨{ s with packs := put s.packs p own }, s2, s3, s4, rfl, rfl, ?_, rfl, ?_⟩
  · simp only [St.step, St.grow, s2, s3, put, if_true] at hr ⊢
    rw [hr]
  · simp only [St.step]
    cases hq : s4.read (s4.grow chain' (s4.packs p)) with
    | error e => rw [(read_error _ _ _ hq).1]
    | ok ys' =>
      exfalso
      have := (read_iff _ _ _).1 hq
      unfold Holds at this
      have hm : s4.lists s.next ∈ (s4.grow chain' (s4.packs p)).map s4.lists :=
        List.mem_map_of_mem (by simp [St.grow, s4, s3, put])
      rw [this] at hm
      simp [s4, put] at hm

/-! ## The hypotheses can be met -/

/-- A pack with one list, through one wrapper, in one scope. -/
example : ∃ s, St.init.run [.make [(['c'], .uint 1)], .make [(['w'], .uint 2)], .open [(['s'], .uint 3)]] = .ok s ∧
    Holds s [0] [[(['c'], .uint 1)]] ∧ Holds s [1] [[(['w'], .uint 2)]] ∧ Holds s s.scopes [[(['s'], .uint 3)]] ∧
    ∀ o ∈ [0] ++ [1] ++ s.scopes, o ≠ s.next :=
  ⟨_, rfl, rfl, rfl, rfl, by decide⟩

/-- Two calls, of which the second repeats the wrapper, and then the wrapper ends. -/
example :
    let s := (St.init.run [.make [(['c'], .uint 1)], .make [(['w'], .uint 2)], .pack 5 [0], .log 5 [1]]).toOption.getD St.init
    (s.step (.log 5 [1])).toOption.map (·.2) = some (some [[(['c'], .uint 1)], [(['w'], .uint 2)], [(['w'], .uint 2)]]) ∧
    (s.run [.destroy 1, .log 5 []]).toOption.isNone = true := by
  refine ⟨by decide, by decide⟩

end Blackhole.PackLife
