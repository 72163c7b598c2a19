import Verif.Json.Fragment
import Verif.Tskv.Lemmas

/-! # Lemmas on JSON trees -/

namespace Blackhole.Json

open Rec

/-! ## Pointers -/

theorem unescapeToken_escape (t : Str) : unescapeToken (escapeToken t) = some t := by
  induction t with
  | nil => rfl
  | cons c t ih =>
    have e : escapeToken (c :: t) = (if c = '~' then ['~', '0'] else if c = '/' then ['~', '1'] else [c]) ++ escapeToken t := rfl
    rw [e]
    by_cases h1 : c = '~'
    · subst h1
      simp [unescapeToken, ih]
    · by_cases h2 : c = '/'
      · subst h2
        simp [unescapeToken, ih]
      · rw [if_neg h1, if_neg h2, List.cons_append, List.nil_append, unescapeToken, ih]
        · rfl
        all_goals simp_all

theorem escapeToken_noslash (t : Str) : '/' ∉ escapeToken t := by
  induction t with
  | nil => simp [escapeToken]
  | cons c t ih =>
    have e : escapeToken (c :: t) = (if c = '~' then ['~', '0'] else if c = '/' then ['~', '1'] else [c]) ++ escapeToken t := rfl
    rw [e]
    by_cases h1 : c = '~'
    · simp [h1, ih]
    · by_cases h2 : c = '/'
      · simp [h2, ih]
      · simp [h1, h2, ih, Ne.symm h2]

theorem tokensFrom_plain (acc a s : Str) (h : '/' ∉ a) : tokensFrom acc (a ++ s) = tokensFrom (acc ++ a) s := by
  induction a generalizing acc with
  | nil => simp
  | cons c a ih =>
    simp only [List.mem_cons, not_or] at h
    rw [List.cons_append, tokensFrom, if_neg (Ne.symm h.1), ih _ h.2, List.append_assoc]
    rfl

theorem tokensFrom_pointer (acc : Str) (L : List Str) :
    tokensFrom acc (pointerText L) = acc :: L.map escapeToken := by
  induction L generalizing acc with
  | nil => rfl
  | cons t L ih =>
    have e : pointerText (t :: L) = '/' :: (escapeToken t ++ pointerText L) := rfl
    rw [e, tokensFrom, if_pos rfl, tokensFrom_plain _ _ _ (escapeToken_noslash t), ih]
    rfl

theorem all_escaped (L : List Str) : all ((L.map escapeToken).map unescapeToken) = some L := by
  induction L with
  | nil => rfl
  | cons t L ih => simp only [List.map_cons, unescapeToken_escape, all, ih, Option.map_some]

theorem parsePointer_text (L : List Str) : parsePointer (pointerText L) = some L := by
  cases L with
  | nil => rfl
  | cons t L =>
    have e : pointerText (t :: L) = '/' :: (escapeToken t ++ pointerText L) := rfl
    rw [e, parsePointer, tokensFrom_plain _ _ _ (escapeToken_noslash t), tokensFrom_pointer, List.nil_append]
    exact all_escaped (t :: L)

theorem tokensFrom_fragment {L : List Str} {s : Str} (h : FragmentNames L s) (acc : Str) :
    ∃ ts, tokensFrom acc s = acc :: ts ∧ all (ts.map fun t => fragmentToken t.length t) = some (L.map bytesOf) := by
  induction h generalizing acc with
  | nil => exact ⟨[], rfl, rfl⟩
  | cons ht _ ih =>
    obtain ⟨h1, h2⟩ := fragmentToken_ok ht
    rw [tokensFrom, if_pos rfl, tokensFrom_plain _ _ _ h2, List.nil_append]
    obtain ⟨ts, e, ha⟩ := ih _
    rw [e]
    refine ⟨_, rfl, ?_⟩
    rw [List.map_cons, h1 _ (Nat.le_refl _), all, ha]
    rfl

theorem parsePointer_points {s : Str} {L : List Str} (h : Points s L) : parsePointer s = some L := by
  cases h with
  | string => exact parsePointer_text _
  | fragment h =>
    cases h with
    | nil => rfl
    | cons ht hn =>
      obtain ⟨ts, e, ha⟩ := tokensFrom_fragment (.cons ht hn) []
      rw [tokensFrom, if_pos rfl, List.cons.injEq] at e
      rw [parsePointer, e.2, ha]

theorem index_none {t : Str} (h : NotIndex t) : index t = none := by
  unfold index
  rw [if_neg]
  rintro ⟨h1, h2, h3⟩
  rcases h with h | ⟨c, hc, hd⟩ | ⟨h, h'⟩
  · exact h1 h
  · rw [List.all_eq_true] at h2
    have := h2 c hc
    simp [hd] at this
  · exact h' (h3 h)

/-! ## Insertion in trees without arrays -/

/-- `alter` without exceptions. -/
def alterP (k : Str) (f : Tree → Tree) : List (Str × Tree) → List (Str × Tree)
  | [] => [(k, f (.obj []))]
  | m :: ms => if m.1 = k then (k, f m.2) :: ms else m :: alterP k f ms

/-- `withDefault` and `addMember` on objects. -/
def ins (m : Str × Tree) : List Str → Tree → Tree
  | [], .obj ms => .obj (ms ++ [m])
  | [], _ => .obj [m]
  | k :: ks, .obj ms => .obj (alterP k (ins m ks) ms)
  | k :: ks, _ => .obj [(k, ins m ks (.obj []))]

/-- The way is free: through objects, or through nothing. -/
def Free : List Str → Tree → Prop
  | [], .obj _ => True
  | k :: ks, .obj ms => ∀ t, child k ms = some t → Free ks t
  | _, _ => False

theorem Free.obj {ks : List Str} {t : Tree} (h : Free ks t) : ∃ ms, t = .obj ms := by
  cases t with
  | obj ms => exact ⟨ms, rfl⟩
  | leaf l => cases ks <;> exact h.elim
  | arr xs => cases ks <;> exact h.elim

theorem alter_eq (k : Str) (g : Option Tree → Except Exc Tree) (f : Tree → Tree) (ms : List (Str × Tree))
    (h0 : child k ms = none → g none = .ok (f (.obj []))) (h1 : ∀ t, child k ms = some t → g (some t) = .ok (f t)) :
    alter k g ms = .ok (alterP k f ms) := by
  induction ms with
  | nil => rw [alter, h0 rfl]; rfl
  | cons m ms ih =>
    obtain ⟨n, t⟩ := m
    rw [alter, alterP]
    by_cases hk : n = k
    · subst hk
      rw [if_pos rfl, if_pos rfl, h1 t (by simp [child])]
      rfl
    · rw [if_neg hk, if_neg hk, ih]
      · rfl
      · intro h; exact h0 (by simpa [child, hk] using h)
      · intro t h; exact h1 t (by simpa [child, hk] using h)

theorem withDefault_fresh (name : Str) (l : Leaf) (ks : List Str) (hi : ∀ k ∈ ks, index k = none) :
    withDefault (addMember name l) ks false (.leaf .null) = .ok (ins (name, .leaf l) ks (.obj [])) := by
  induction ks with
  | nil => rfl
  | cons k ks ih =>
    have h := hi k List.mem_cons_self
    simp only [withDefault, container, h]
    simp only [Option.isSome_none, Bool.false_eq_true, if_false, alter,
      ih (fun k hk => hi k (List.mem_cons_of_mem _ hk)), Except.map, ins, alterP]

theorem withDefault_eq (name : Str) (l : Leaf) (ks : List Str) (hi : ∀ k ∈ ks.tail, index k = none) (t : Tree)
    (hf : Free ks t) : withDefault (addMember name l) ks true t = .ok (ins (name, .leaf l) ks t) := by
  induction ks generalizing t with
  | nil =>
    obtain ⟨ms, rfl⟩ := hf.obj
    rfl
  | cons k ks ih =>
    obtain ⟨ms, rfl⟩ := hf.obj
    simp only [withDefault, container, ins]
    rw [alter_eq k _ (ins (name, .leaf l) ks) ms]
    · rfl
    · intro _
      exact withDefault_fresh name l ks hi
    · intro t ht
      exact ih (fun k hk => hi k (List.mem_of_mem_tail hk)) t (hf t ht)

/-! ### What is at a place after an insertion -/

theorem child_append (k : Str) (ms ns : List (Str × Tree)) :
    child k (ms ++ ns) = (child k ms).or (child k ns) := by
  induction ms with
  | nil => simp [child]
  | cons m ms ih =>
    by_cases h : m.1 = k
    · simp [child, h]
    · simp [child, h, ih]

theorem child_alterP_self (k : Str) (f : Tree → Tree) (ms : List (Str × Tree)) :
    child k (alterP k f ms) = some (f ((child k ms).getD (.obj []))) := by
  induction ms with
  | nil => simp [child, alterP]
  | cons m ms ih =>
    by_cases h : m.1 = k
    · simp [child, alterP, h]
    · simp [child, alterP, h, ih]

theorem child_alterP_other {k j : Str} (f : Tree → Tree) (ms : List (Str × Tree)) (hj : j ≠ k) :
    child j (alterP k f ms) = child j ms := by
  induction ms with
  | nil => simp [child, alterP, Ne.symm hj]
  | cons m ms ih =>
    by_cases h : m.1 = k
    · simp [child, alterP, h, Ne.symm hj]
    · by_cases h' : m.1 = j
      · rw [alterP, if_neg h]
        simp [child, h']
      · simp [child, alterP, h, h', ih]

theorem ins_obj (m : Str × Tree) (ks : List Str) (t : Tree) : ∃ ms, ins m ks t = .obj ms := by
  cases ks <;> cases t <;> exact ⟨_, rfl⟩

/-- The name and the tree of a member that is an object. -/
theorem groupOf_obj (k : Str) (ms : List (Str × Tree)) : groupOf (k, .obj ms) = some k := rfl

theorem leafOf_obj (k : Str) (ms : List (Str × Tree)) : leafOf (k, .obj ms) = none := rfl

theorem free_empty (ks : List Str) : Free ks (.obj []) := by
  cases ks with
  | nil => trivial
  | cons k ks => intro t h; simp [child] at h

/-- Values at the top of an object do not change when one of its objects does. -/
theorem leafs_alterP (k : Str) (m : Str × Tree) (ks : List Str) (ms : List (Str × Tree))
    (h : ∀ t, child k ms = some t → Free ks t) :
    (alterP k (ins m ks) ms).filterMap leafOf = ms.filterMap leafOf := by
  induction ms with
  | nil =>
    obtain ⟨ns, e⟩ := ins_obj m ks (.obj [])
    rw [alterP, e]; rfl
  | cons n ms ih =>
    obtain ⟨j, t⟩ := n
    rw [alterP]
    by_cases hk : j = k
    · subst hk
      obtain ⟨ns, e⟩ := ins_obj m ks t
      obtain ⟨os, rfl⟩ := (h t (by simp [child])).obj
      rw [if_pos rfl, e]; rfl
    · rw [if_neg hk, List.filterMap_cons, List.filterMap_cons, ih]
      intro t ht
      exact h t (by simpa [child, hk] using ht)

/-- The objects at the top: one more if there was no member with the name. -/
theorem groups_alterP (k : Str) (m : Str × Tree) (ks : List Str) (ms : List (Str × Tree))
    (h : ∀ t, child k ms = some t → Free ks t) :
    (alterP k (ins m ks) ms).filterMap groupOf
      = ms.filterMap groupOf ++ (if child k ms = none then [k] else []) := by
  induction ms with
  | nil =>
    obtain ⟨ns, e⟩ := ins_obj m ks (.obj [])
    rw [alterP, e]; rfl
  | cons n ms ih =>
    obtain ⟨j, t⟩ := n
    rw [alterP]
    by_cases hk : j = k
    · subst hk
      obtain ⟨ns, e⟩ := ins_obj m ks t
      obtain ⟨os, rfl⟩ := (h t (by simp [child])).obj
      rw [if_pos rfl, e]
      simp [child, groupOf_obj]
    · rw [if_neg hk, List.filterMap_cons, List.filterMap_cons, ih]
      · cases groupOf (j, t) <;> simp [child, hk]
      · intro t ht
        exact h t (by simpa [child, hk] using ht)

theorem at?_obj_cons (k : Str) (L : List Str) (ms : List (Str × Tree)) :
    Tree.at? (k :: L) (.obj ms) = (child k ms).bind (·.at? L) := by
  rw [Tree.at?]
  cases child k ms <;> rfl

theorem valuesAt_cons (k : Str) (L : List Str) (ms : List (Str × Tree)) :
    Tree.valuesAt (k :: L) (.obj ms) = ((child k ms).getD (.obj [])).valuesAt L := by
  rw [Tree.valuesAt, Tree.membersAt, at?_obj_cons]
  cases child k ms with
  | some t => rfl
  | none =>
    cases L with
    | nil => rfl
    | cons j L => rw [Tree.valuesAt, Tree.membersAt, Option.getD_none, at?_obj_cons]; rfl

theorem groupsAt_cons (k : Str) (L : List Str) (ms : List (Str × Tree)) :
    Tree.groupsAt (k :: L) (.obj ms) = ((child k ms).getD (.obj [])).groupsAt L := by
  rw [Tree.groupsAt, Tree.membersAt, at?_obj_cons]
  cases child k ms with
  | some t => rfl
  | none =>
    cases L with
    | nil => rfl
    | cons j L => rw [Tree.groupsAt, Tree.membersAt, Option.getD_none, at?_obj_cons]; rfl

theorem valuesAt_leaf (L : List Str) (l : Leaf) : (Tree.leaf l).valuesAt L = [] := by cases L <;> rfl
theorem groupsAt_leaf (L : List Str) (l : Leaf) : (Tree.leaf l).groupsAt L = [] := by cases L <;> rfl

theorem free_getD {k : Str} {ks : List Str} {ms : List (Str × Tree)} (h : ∀ t, child k ms = some t → Free ks t) :
    Free ks ((child k ms).getD (.obj [])) := by
  cases hc : child k ms with
  | none => exact free_empty ks
  | some t => exact h t hc

theorem valuesAt_ins (name : Str) (l : Leaf) (ks L : List Str) (t : Tree) (hf : Free ks t) :
    (ins (name, .leaf l) ks t).valuesAt L = t.valuesAt L ++ (if L = ks then [(name, l)] else []) := by
  induction ks generalizing t L with
  | nil =>
    obtain ⟨ms, rfl⟩ := hf.obj
    rw [ins]
    cases L with
    | nil => simp [Tree.valuesAt, Tree.membersAt, Tree.at?, members, leafOf]
    | cons j L =>
      rw [valuesAt_cons, valuesAt_cons, child_append, if_neg (by simp), List.append_nil]
      cases child j ms with
      | some t => rfl
      | none =>
        by_cases h : name = j
        · simp only [child, h, if_true, Option.none_or, Option.getD_some, Option.getD_none, valuesAt_leaf]
          cases L <;> rfl
        · simp [child, h]
  | cons k ks ih =>
    obtain ⟨ms, rfl⟩ := hf.obj
    rw [ins]
    cases L with
    | nil =>
      rw [if_neg (by simp), List.append_nil]
      exact leafs_alterP k _ ks ms hf
    | cons j L =>
      rw [valuesAt_cons, valuesAt_cons]
      by_cases hj : j = k
      · subst hj
        rw [child_alterP_self, Option.getD_some, ih L _ (free_getD hf)]
        simp
      · rw [child_alterP_other _ _ hj, if_neg (by simp [hj]), List.append_nil]

theorem groupsAt_ins (name : Str) (l : Leaf) (ks L : List Str) (t : Tree) (hf : Free ks t) :
    ∃ new : List Str, (ins (name, .leaf l) ks t).groupsAt L = t.groupsAt L ++ new
      ∧ (∀ k, k ∈ t.groupsAt L ∨ k ∈ new ↔ k ∈ t.groupsAt L ∨ L ++ [k] <+: ks)
      ∧ new.Nodup ∧ (∀ k ∈ new, k ∉ t.groupsAt L) := by
  induction ks generalizing t L with
  | nil =>
    obtain ⟨ms, rfl⟩ := hf.obj
    refine ⟨[], ?_, by simp, by simp, by simp⟩
    rw [ins, List.append_nil]
    cases L with
    | nil => simp [Tree.groupsAt, Tree.membersAt, Tree.at?, members, groupOf]
    | cons j L =>
      rw [groupsAt_cons, groupsAt_cons, child_append]
      cases child j ms with
      | some t => rfl
      | none =>
        by_cases h : name = j
        · simp only [child, h, if_true, Option.none_or, Option.getD_some, Option.getD_none, groupsAt_leaf]
          cases L <;> rfl
        · simp [child, h]
  | cons k ks ih =>
    obtain ⟨ms, rfl⟩ := hf.obj
    rw [ins]
    cases L with
    | nil =>
      have e : Tree.groupsAt [] (.obj (alterP k (ins (name, .leaf l) ks) ms)) = _ := groups_alterP k _ ks ms hf
      have e2 : Tree.groupsAt [] (.obj ms) = ms.filterMap groupOf := rfl
      refine ⟨_, e, ?_, ?_, ?_⟩
      · intro j
        rw [e2]
        cases hc : child k ms with
        | none => simp
        | some t =>
          have hm : k ∈ ms.filterMap groupOf := by
            obtain ⟨os, rfl⟩ := (hf t hc).obj
            clear e e2 hf ih
            induction ms with
            | nil => simp [child] at hc
            | cons n ms ih =>
              obtain ⟨j, t⟩ := n
              by_cases hj : j = k
              · subst hj
                simp [child] at hc
                subst hc
                simp [groupOf_obj]
              · rw [List.filterMap_cons]
                have := ih (by simpa [child, hj] using hc)
                cases groupOf (j, t) with
                | none => exact this
                | some a => exact List.mem_cons_of_mem _ this
          simp only [reduceCtorEq, if_false, List.not_mem_nil, or_false, List.nil_append, List.cons_prefix_cons,
            List.nil_prefix, and_true]
          refine ⟨Or.inl, ?_⟩
          rintro (h | rfl)
          · exact h
          · exact hm
      · split <;> simp
      · intro j hj
        rw [e2]
        cases hc : child k ms with
        | some t => simp [hc] at hj
        | none =>
          simp [hc] at hj
          subst hj
          clear e e2 hf ih
          induction ms with
          | nil => simp
          | cons n ms ih =>
            obtain ⟨i, t⟩ := n
            have h1 : i ≠ j := by
              intro h
              subst h
              simp [child] at hc
            have h2 := ih (by simpa [child, h1] using hc)
            rw [List.filterMap_cons]
            cases t with
            | leaf l => exact h2
            | arr xs => simp only [groupOf, List.mem_cons, not_or]; exact ⟨Ne.symm h1, h2⟩
            | obj xs => simp only [groupOf, List.mem_cons, not_or]; exact ⟨Ne.symm h1, h2⟩
    | cons j L =>
      rw [groupsAt_cons, groupsAt_cons]
      by_cases hj : j = k
      · subst hj
        rw [child_alterP_self, Option.getD_some]
        obtain ⟨new, h1, h2, h3, h4⟩ := ih L _ (free_getD hf)
        exact ⟨new, h1, by simpa using h2, h3, h4⟩
      · rw [child_alterP_other _ _ hj]
        exact ⟨[], by simp, by simp [hj], by simp, by simp⟩

/-- No arrays are made. -/
def NoArrays (t : Tree) : Prop := ∀ L xs, t.at? L ≠ some (.arr xs)

theorem noArrays_child {ms : List (Str × Tree)} (h : NoArrays (.obj ms)) (k : Str) :
    NoArrays ((child k ms).getD (.obj [])) := by
  intro L xs he
  cases hc : child k ms with
  | none =>
    rw [hc, Option.getD_none] at he
    cases L with
    | nil => simp [Tree.at?] at he
    | cons j L => simp [at?_obj_cons, child] at he
  | some t =>
    refine h (k :: L) xs ?_
    rw [at?_obj_cons, hc]
    simpa [hc] using he

theorem noArrays_ins (name : Str) (l : Leaf) (ks : List Str) (t : Tree) (hf : Free ks t) (h : NoArrays t) :
    NoArrays (ins (name, .leaf l) ks t) := by
  induction ks generalizing t with
  | nil =>
    obtain ⟨ms, rfl⟩ := hf.obj
    intro L xs he
    rw [ins] at he
    cases L with
    | nil => simp [Tree.at?] at he
    | cons j L =>
      rw [at?_obj_cons, child_append] at he
      cases hc : child j ms with
      | some t =>
        rw [hc] at he
        exact h (j :: L) xs (by rw [at?_obj_cons, hc]; exact he)
      | none =>
        rw [hc] at he
        by_cases hn : name = j
        · simp only [child, hn, if_true, Option.none_or, Option.bind_some] at he
          cases L <;> simp [Tree.at?] at he
        · simp [child, hn] at he
  | cons k ks ih =>
    obtain ⟨ms, rfl⟩ := hf.obj
    intro L xs he
    rw [ins] at he
    cases L with
    | nil => simp [Tree.at?] at he
    | cons j L =>
      rw [at?_obj_cons] at he
      by_cases hj : j = k
      · subst hj
        rw [child_alterP_self] at he
        exact ih _ (free_getD hf) (noArrays_child h j) L xs he
      · rw [child_alterP_other _ _ hj, ← at?_obj_cons] at he
        exact h (j :: L) xs he

theorem child_values {k : Str} {l : Leaf} {ms : List (Str × Tree)} (h : child k ms = some (.leaf l)) :
    (k, l) ∈ ms.filterMap leafOf := by
  induction ms with
  | nil => simp [child] at h
  | cons n ms ih =>
    obtain ⟨j, t⟩ := n
    by_cases hj : j = k
    · subst hj
      simp [child] at h
      subst h
      simp [leafOf]
    · rw [List.filterMap_cons]
      have := ih (by simpa [child, hj] using h)
      cases leafOf (j, t) with
      | none => exact this
      | some a => exact List.mem_cons_of_mem _ this

/-- The way is free if no value is on it. -/
theorem free_of (ks : List Str) (t : Tree) (ho : ∃ ms, t = .obj ms) (hn : NoArrays t)
    (hv : ∀ L k l, (k, l) ∈ t.valuesAt L → ¬ L ++ [k] <+: ks) : Free ks t := by
  obtain ⟨ms, rfl⟩ := ho
  induction ks generalizing ms with
  | nil => trivial
  | cons k ks ih =>
    intro t ht
    cases t with
    | leaf l =>
      exact absurd (by simp) (hv [] k l (child_values ht))
    | arr xs =>
      refine absurd ?_ (hn [k] xs)
      rw [at?_obj_cons, ht]
      rfl
    | obj os =>
      refine ih os ?_ ?_
      · have := noArrays_child hn k
        rwa [ht] at this
      · intro L j l hl
        have := hv (k :: L) j l (by rw [valuesAt_cons, ht]; exact hl)
        simpa using this

end Blackhole.Json
