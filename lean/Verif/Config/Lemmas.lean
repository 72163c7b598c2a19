import Verif.Config.Spec

/-! # Lemmas about configuration nodes -/

namespace Blackhole.Config

theorem cstr_plain {s : Str} (h : '\x00' ∉ s) : cstr s = s := by
  induction s with
  | nil => rfl
  | cons c s ih =>
    simp only [List.mem_cons, not_or] at h
    have hc : c ≠ '\x00' := fun e => h.1 e.symm
    simp only [cstr] at ih ⊢
    simp [List.takeWhile, hc]
    simpa using ih h.2

theorem member_some {key : Str} {ms : List (Str × Json)} {v : Json} :
    member key ms = some v ↔ ∃ before after, ms = before ++ (key, v) :: after ∧ ∀ m ∈ before, m.1 ≠ key := by
  induction ms with
  | nil => simp [member]
  | cons m ms ih =>
    obtain ⟨k, x⟩ := m
    by_cases h : k = key
    · subst h
      simp only [member, if_true, Option.some.injEq]
      constructor
      · rintro rfl
        exact ⟨[], ms, rfl, by simp⟩
      · rintro ⟨before, after, e, hb⟩
        cases before with
        | nil => simp at e; exact e.1
        | cons b before =>
          have : b = (k, x) := by simp at e; exact e.1.symm
          exact absurd (by rw [this]) (hb b (by simp))
    · simp only [member, h, if_false, ih]
      constructor
      · rintro ⟨before, after, e, hb⟩
        refine ⟨(k, x) :: before, after, by simp [e], ?_⟩
        intro m hm
        rcases List.mem_cons.1 hm with rfl | hm
        · exact h
        · exact hb m hm
      · rintro ⟨before, after, e, hb⟩
        cases before with
        | nil => simp at e; exact absurd e.1.1 h
        | cons b before =>
          refine ⟨before, after, ?_, fun m hm => hb m (List.mem_cons_of_mem _ hm)⟩
          simp at e; exact e.2

theorem path_none (p : List Step) : Opt.path none p = none := by
  induction p with
  | nil => rfl
  | cons s p ih =>
    have : Opt.step none s = none := by cases s <;> rfl
    simpa [Opt.path, this] using ih

theorem path_cons (o : Opt) (s : Step) (p : List Step) : o.path (s :: p) = (o.step s).path p := rfl

theorem path_iff (p : List Step) (hp : Plain p) (n m : Node) :
    Opt.path (some n) p = some m ↔ HasAt n.value p m.value ∧ m.cursor = n.cursor ++ shown p := by
  induction p generalizing n with
  | nil =>
    simp only [Opt.path, List.foldl_nil, Option.some.injEq, shown, List.append_nil]
    constructor
    · rintro rfl; exact ⟨.here _, rfl⟩
    · rintro ⟨h, hc⟩
      cases n; cases m
      cases h
      simp_all
  | cons s p ih =>
    have hp' : Plain p := fun k hk => hp k (List.mem_cons_of_mem _ hk)
    obtain ⟨nv, nc⟩ := n
    rw [path_cons]
    cases s with
    | key k =>
      have hk : cstr k = k := cstr_plain (hp k (by simp))
      cases nv with
      | obj ms =>
        simp only [Opt.step, Opt.key, Node.key, hk]
        cases hm : member k ms with
        | none =>
          simp only [path_none]
          constructor
          · intro h; cases h
          · rintro ⟨h, _⟩
            cases h with
            | key hb h =>
              rename_i before after x
              have : member k (before ++ (k, x) :: after) = some x := member_some.2 ⟨_, _, rfl, hb⟩
              rw [hm] at this; cases this
        | some x =>
          simp only [ih hp']
          constructor
          · rintro ⟨h, hc⟩
            obtain ⟨before, after, rfl, hb⟩ := member_some.1 hm
            exact ⟨.key hb h, by rw [hc]; simp [advanceKey, shown]⟩
          · rintro ⟨h, hc⟩
            cases h with
            | key hb h =>
              rename_i before after y
              have : member k (before ++ (k, y) :: after) = some y := member_some.2 ⟨_, _, rfl, hb⟩
              rw [hm] at this
              injection this with this
              subst this
              exact ⟨h, by rw [hc]; simp [advanceKey, shown]⟩
      | null | bool | int | double | str | arr =>
        simp only [Opt.step, Opt.key, Node.key, path_none]
        constructor
        · intro h; cases h
        · rintro ⟨h, _⟩; cases h
    | idx i =>
      cases nv with
      | arr items =>
        simp only [Opt.step, Opt.idx, Node.idx]
        cases hi : items[i]? with
        | none =>
          simp only [path_none]
          constructor
          · intro h; cases h
          · rintro ⟨h, _⟩
            cases h with
            | idx h1 _ => rw [hi] at h1; cases h1
        | some x =>
          simp only [ih hp']
          constructor
          · rintro ⟨h, hc⟩
            exact ⟨.idx hi h, by rw [hc]; simp [advanceIdx, indexStr, shown]⟩
          · rintro ⟨h, hc⟩
            cases h with
            | idx h1 h2 =>
              rw [hi] at h1
              injection h1 with h1
              subst h1
              exact ⟨h2, by rw [hc]; simp [advanceIdx, indexStr, shown]⟩
      | null | bool | int | double | str | obj =>
        simp only [Opt.step, Opt.idx, Node.idx, path_none]
        constructor
        · intro h; cases h
        · rintro ⟨h, _⟩; cases h

theorem shown_ne_nil {p : List Step} (h : p ≠ []) : shown p ≠ [] := by
  cases p with
  | nil => exact absurd rfl h
  | cons s p => cases s <;> simp [shown]

theorem mismatch_at {n : Node} {p : List Step} (hc : n.cursor = shown p) (e : Str) :
    n.mismatch e = { cursor := cursorOf p, expected := e, actual := n.value.type } := by
  unfold Node.mismatch cursorOf
  rw [hc]
  by_cases hp : p = []
  · subst hp; simp [shown]
  · simp [hp, shown_ne_nil hp]

end Blackhole.Config
