import Verif.Wire.Spec

namespace Blackhole.Wire

open Rec StringFmt Json

/-! ## Reading does not depend on what follows -/

theorem readString_more : ∀ (p : Str) {t rest : Str} (x : Str), readString p = some (t, rest) →
    readString (p ++ x) = some (t, rest ++ x) := by
  intro p
  fun_induction readString p <;> intro t rest x h
  case case1 s =>
    simp only [Option.some.injEq, Prod.mk.injEq] at h
    obtain ⟨rfl, rfl⟩ := h
    simp [readString]
  case case2 a b c d s ih =>
    simp only [Option.bind_eq_some_iff, Option.map_eq_some_iff] at h
    obtain ⟨y, h1, ⟨q, r⟩, h2, h3⟩ := h
    cases h3
    simp only [List.cons_append, readString, h1, Option.bind_some, ih x h2]
    rfl
  case case3 c s hne ih =>
    simp only [Option.bind_eq_some_iff, Option.map_eq_some_iff] at h
    obtain ⟨y, h1, ⟨q, r⟩, h2, h3⟩ := h
    cases h3
    have hc : c ≠ 'u' := by rintro rfl; simp [simpleEscape] at h1
    simp only [List.cons_append]
    rw [readString, h1, Option.bind_some, ih x h2]
    · rfl
    · intro a b c' d s' e _
      exact hc e
  case case4 c s h1 h2 h3 h4 => cases h
  case case5 c s h1 h2 h3 h4 ih =>
    simp only [Option.map_eq_some_iff] at h
    obtain ⟨⟨q, r⟩, h2', h3'⟩ := h
    cases h3'
    simp only [List.cons_append]
    by_cases hb : c = '\\'
    · subst hb
      cases s with
      | nil => simp [readString] at h2'
      | cons c' s => exact absurd rfl (h3 c' s rfl)
    · rw [readString, if_neg h4, ih x h2']
      · rfl
      all_goals simp_all
  case case6 => cases h

theorem takeWhile_more {q : Char → Bool} {p : Str} (x : Str) (h : p.dropWhile q ≠ []) :
    (p ++ x).takeWhile q = p.takeWhile q ∧ (p ++ x).dropWhile q = p.dropWhile q ++ x := by
  induction p with
  | nil => exact absurd rfl h
  | cons c p ih =>
    by_cases hc : q c = true
    · simp only [List.dropWhile_cons, hc, if_true] at h
      simp [hc, ih h]
    · simp [hc]

theorem read_more (n : Nat) :
    (∀ p v rest x m, n ≤ m → readValue n p = some (v, rest) → (rest ≠ [] ∨ p.head? = some '{') →
      readValue m (p ++ x) = some (v, rest ++ x))
    ∧ (∀ p vs rest x m, n ≤ m → readItems n p = some (vs, rest) → readItems m (p ++ x) = some (vs, rest ++ x))
    ∧ (∀ p vs rest x m, n ≤ m → readMembers n p = some (vs, rest) → readMembers m (p ++ x) = some (vs, rest ++ x)) := by
  induction n with
  | zero =>
    refine ⟨?_, ?_, ?_⟩
    · intro p v rest x m _ h; simp [readValue] at h
    · intro p v rest x m _ h; simp [readItems] at h
    · intro p v rest x m _ h; simp [readMembers] at h
  | succ n ih =>
    obtain ⟨ihv, ihi, ihm⟩ := ih
    refine ⟨?_, ?_, ?_⟩
    · intro p v rest x m hm h hs
      obtain ⟨m, rfl⟩ : ∃ k, m = k + 1 := ⟨m - 1, by omega⟩
      have hm : n ≤ m := by omega
      unfold readValue at h
      split at h
      · cases h; simp [readValue]
      · cases h; simp [readValue]
      · cases h; simp [readValue]
      · split at h
        · rename_i t s' he
          cases h
          simp only [List.cons_append, readValue, readString_more _ x he]
        · cases h
      · cases h; simp [readValue]
      · rename_i s hne
        split at h
        · rename_i xs s' he
          cases h
          have := ihi _ _ _ x m hm he
          simp only [List.cons_append]
          rw [readValue, this]
          intro t ht
          cases s with
          | nil =>
            have hv : readValue (n - 1) [] = none := by cases n - 1 <;> simp [readValue]
            cases n with
            | zero => simp [readItems] at he
            | succ n => rw [Nat.add_sub_cancel] at hv; simp [readItems, hv] at he
          | cons c s =>
            simp only [List.cons_append, List.cons.injEq] at ht
            exact hne s (by rw [ht.1])
        · cases h
      · cases h; simp [readValue]
      · rename_i s hne
        split at h
        · rename_i xs s' he
          cases h
          have := ihm _ _ _ x m hm he
          simp only [List.cons_append]
          rw [readValue, this]
          intro t ht
          cases s with
          | nil => cases n <;> simp [readMembers] at he
          | cons c s =>
            simp only [List.cons_append, List.cons.injEq] at ht
            exact hne s (by rw [ht.1])
        · cases h
      · rename_i h1 h2 h3 h4 h5 h6 h7 h8
        split at h
        · cases h
        · rename_i hne
          cases h
          cases p with
          | nil => simp at hne
          | cons c p =>
            have hc : numeric c = true := by
              cases hcn : numeric c with
              | true => rfl
              | false => simp [hcn] at hne
            have hs' : (c :: p).dropWhile numeric ≠ [] := by
              rcases hs with hs | hs
              · exact hs
              · simp only [List.head?_cons, Option.some.injEq] at hs
                exact absurd hs (numeric_first hc).2.2.2.2.2
            obtain ⟨e1, e2⟩ := takeWhile_more x hs'
            obtain ⟨a, b, d, e, f, g⟩ := numeric_first hc
            rw [List.cons_append] at e1 e2 ⊢
            rw [readValue]
            · rw [e1, e2, if_neg hne]
            all_goals simp_all
    · intro p vs rest x m hm h
      obtain ⟨m, rfl⟩ : ∃ k, m = k + 1 := ⟨m - 1, by omega⟩
      have hm : n ≤ m := by omega
      unfold readItems at h
      split at h
      · rename_i v s he
        cases h
        have := ihv _ _ _ x m hm he (.inl (by simp))
        rw [readItems, this]
        rfl
      · rename_i v s he
        have := ihv _ _ _ x m hm he (.inl (by simp))
        split at h
        · rename_i vs' s' he'
          cases h
          have h2 := ihi _ _ _ x m hm he'
          rw [readItems, this]
          simp only [List.cons_append, h2]
        · cases h
      · cases h
    · intro p vs rest x m hm h
      obtain ⟨m, rfl⟩ : ∃ k, m = k + 1 := ⟨m - 1, by omega⟩
      have hm : n ≤ m := by omega
      unfold readMembers at h
      split at h
      · split at h
        · rename_i k s hk
          have hk' := readString_more _ x hk
          split at h
          · rename_i v s' he
            cases h
            have := ihv _ _ _ x m hm he (.inl (by simp))
            rw [List.cons_append, readMembers, hk']
            simp only [List.cons_append, this]
          · rename_i v s' he
            have := ihv _ _ _ x m hm he (.inl (by simp))
            split at h
            · rename_i vs' s'' he'
              cases h
              have h2 := ihm _ _ _ x m hm he'
              rw [List.cons_append, readMembers, hk']
              simp only [List.cons_append, this, h2]
            · cases h
          · cases h
        · cases h
      · cases h

/-! ## Objects -/

/-- The root of a record's tree is an object. -/
theorem withDefault_obj {f : Tree → Except Exc Tree} (hf : ∀ ms t, f (.obj ms) = .ok t → ∃ ms', t = .obj ms')
    (tokens : List Str) (ms : List (Str × Tree)) (t : Tree) (h : withDefault f tokens true (.obj ms) = .ok t) :
    ∃ ms', t = .obj ms' := by
  cases tokens with
  | nil => exact hf ms t (by simpa [withDefault] using h)
  | cons token tokens =>
    simp only [withDefault, container] at h
    generalize alter token _ ms = r at h
    cases r with
    | error e => cases h
    | ok ms' => cases h; exact ⟨ms', rfl⟩

theorem placeAll_obj (d : Data) (fs : List (Str × Except Exc Leaf)) : ∀ (ms : List (Str × Tree)) (t : Tree),
    placeAll d (.obj ms) fs = .ok t → ∃ ms', t = .obj ms' := by
  induction fs with
  | nil => intro ms t h; cases h; exact ⟨ms, rfl⟩
  | cons f fs ih =>
    intro ms t h
    obtain ⟨name, value⟩ := f
    simp only [placeAll] at h
    cases hp : place d (.obj ms) name value with
    | error e => rw [hp] at h; cases h
    | ok u =>
      rw [hp] at h
      simp only at h
      obtain ⟨ms', rfl⟩ : ∃ ms', u = .obj ms' := by
        unfold place at hp
        split at hp
        · cases hp
        · split at hp
          · cases hp
          · refine withDefault_obj ?_ _ _ _ hp
            intro ms0 t0 h0
            cases h0
            exact ⟨_, rfl⟩
      exact ih ms' t h

theorem tree_obj {env : Env} {clock : Clock} {d : Data} {r : Record} {t : Tree} (h : tree env clock d r = .ok t) :
    ∃ ms, t = .obj ms := placeAll_obj d _ _ _ h

/-! ## A stream of objects -/

/-- The text of an object, followed by newlines. -/
def Carries (dtoa : Nat → Str) (t : Tree) (m : Str) : Prop :=
  (∃ ms, t = .obj ms) ∧ ∃ k, m = write dtoa t ++ List.replicate k '\n'

theorem write_obj (dtoa : Nat → Str) (ms : List (Str × Tree)) : write dtoa (.obj ms) = '{' :: writeMembers dtoa ms := by
  rw [write]

/-- A strict beginning of an object is not a value. -/
theorem readValue_part {dtoa : Nat → Str} (hd : Numbers dtoa) (ms : List (Str × Tree)) (p x : Str) (hx : x ≠ []) (n : Nat)
    (hp : write dtoa (.obj ms) = p ++ x) : readValue n p = none := by
  cases hr : readValue n p with
  | none => rfl
  | some r =>
    obtain ⟨v, rest⟩ := r
    exfalso
    have hne : p.head? = some '{' := by
      cases p with
      | nil => cases n <;> simp [readValue] at hr
      | cons c p =>
        rw [write_obj, List.cons_append, List.cons.injEq] at hp
        rw [← hp.1]; rfl
    have h1 := (read_more n).1 p v rest x (n + (write dtoa (.obj ms)).length + 1) (by omega) hr (.inr hne)
    have h2 := readValue_tree hd (.obj ms) (n + (write dtoa (.obj ms)).length) [] (by omega) (by intro c h; cases h)
    rw [List.append_nil, hp] at h2
    rw [hp, h2] at h1
    simp only [Option.some.injEq, Prod.mk.injEq] at h1
    have := h1.2
    simp at this
    exact hx this.2

theorem readStream_newlines (k n : Nat) (s : Str) : readStream (n + k) (List.replicate k '\n' ++ s) = readStream n s := by
  induction k with
  | zero => simp
  | succ k ih => rw [List.replicate_succ, List.cons_append, ← Nat.add_assoc, readStream, if_pos rfl, ih]

theorem readStream_obj {dtoa : Nat → Str} (hd : Numbers dtoa) (ms : List (Str × Tree)) (n : Nat) (rest : Str)
    (hr : Stops rest) : readStream (n + 1) (write dtoa (.obj ms) ++ rest)
      = ((Tree.obj ms).parsed dtoa :: (readStream n rest).1, (readStream n rest).2) := by
  have h := readValue_tree hd (.obj ms) (write dtoa (.obj ms) ++ rest).length rest (by simp) hr
  rw [write_obj, List.cons_append] at h ⊢
  rw [readStream, if_neg (by decide)]
  rw [List.length_cons] at h
  rw [h]

theorem stops_newlines (k : Nat) (s : Str) (hs : Stops s) : Stops (List.replicate k '\n' ++ s) := by
  cases k with
  | zero => simpa using hs
  | succ k =>
    intro c h
    simp [List.replicate_succ] at h
    subst h
    decide

theorem stops_stream {dtoa : Nat → Str} {ts : List Tree} {ms : List Str} (h : Both (Carries dtoa) ts ms) (bytes : Str)
    (hb : bytes <+: ms.flatten) : Stops bytes := by
  intro c hc
  cases h with
  | nil => simp at hb; subst hb; cases hc
  | cons h1 h2 =>
    obtain ⟨⟨obj, rfl⟩, k, rfl⟩ := h1
    obtain ⟨x, hx⟩ := hb
    cases bytes with
    | nil => cases hc
    | cons b bytes =>
      simp only [List.head?_cons, Option.some.injEq] at hc
      subst hc
      rw [List.flatten_cons, write_obj] at hx
      simp only [List.cons_append, List.cons.injEq] at hx
      rw [hx.1]
      decide

/-- Of a beginning of the stream the reader finds the objects that are there as a whole, and leaves a strict beginning of
the next. -/
theorem readStream_prefix {dtoa : Nat → Str} (hd : Numbers dtoa) {ts : List Tree} {ms : List Str}
    (h : Both (Carries dtoa) ts ms) : ∀ (n : Nat) (bytes : Str), bytes.length < n → bytes <+: ms.flatten →
      ∃ k, k ≤ ts.length ∧ (readStream n bytes).1 = (ts.take k).map (Tree.parsed dtoa)
        ∧ (∀ j, j ≤ ts.length → (ms.take j).flatten <+: bytes → j ≤ k)
        ∧ ((readStream n bytes).2 = [] ∨ ∃ m, ms[k]? = some m ∧ (readStream n bytes).2 <+: m) := by
  induction h with
  | nil =>
    intro n bytes _ hb
    have : bytes = [] := by simpa using hb
    subst this
    refine ⟨0, by simp, ?_, by simp, .inl ?_⟩ <;> cases n <;> rfl
  | @cons t m ts ms h1 h2 ih =>
    intro n bytes hn hb
    obtain ⟨⟨obj, rfl⟩, k, rfl⟩ := h1
    obtain ⟨n, rfl⟩ : ∃ n', n = n' + 1 := ⟨n - 1, by omega⟩
    rw [List.flatten_cons] at hb
    have hpos : 0 < (write dtoa (.obj obj)).length := by rw [write_obj]; simp
    by_cases hw : write dtoa (.obj obj) ++ List.replicate k '\n' <+: bytes
    · obtain ⟨b', rfl⟩ := hw
      have hb' : b' <+: ms.flatten := (List.prefix_append_right_inj _).1 hb
      simp only [List.length_append, List.length_replicate] at hn
      obtain ⟨n', rfl⟩ : ∃ n', n = n' + k := ⟨n - k, by omega⟩
      obtain ⟨j, j1, j2, j3, j4⟩ := ih n' b' (by omega) hb'
      have hst := stops_stream h2 b' hb'
      have e : readStream (n' + k + 1) (write dtoa (.obj obj) ++ List.replicate k '\n' ++ b')
          = ((Tree.obj obj).parsed dtoa :: (readStream n' b').1, (readStream n' b').2) := by
        rw [List.append_assoc, readStream_obj hd obj _ _ (stops_newlines k b' hst), readStream_newlines]
      rw [e]
      refine ⟨j + 1, by simpa using j1, by simp [j2], ?_, ?_⟩
      · intro i hi hp
        cases i with
        | zero => omega
        | succ i =>
          have := j3 i (by simpa using hi) (by
            rw [List.take_succ_cons, List.flatten_cons] at hp
            exact (List.prefix_append_right_inj _).1 hp)
          omega
      · simpa using j4
    · have hsh : ∀ j, j ≤ (Tree.obj obj :: ts).length →
          (((write dtoa (.obj obj) ++ List.replicate k '\n') :: ms).take j).flatten <+: bytes → j ≤ 0 := by
        intro j _ hp
        cases j with
        | zero => omega
        | succ j =>
          rw [List.take_succ_cons, List.flatten_cons] at hp
          exact absurd ((List.prefix_append _ _).trans hp) hw
      have hpre : bytes <+: write dtoa (.obj obj) ++ List.replicate k '\n' := by
        rcases List.prefix_or_prefix_of_prefix hb (List.prefix_append _ _) with h | h
        · exact h
        · exact absurd h hw
      by_cases hwr : write dtoa (.obj obj) <+: bytes
      · obtain ⟨b', rfl⟩ := hwr
        have hb' : b' <+: List.replicate k '\n' := (List.prefix_append_right_inj _).1 hpre
        obtain ⟨i, rfl⟩ : ∃ i, b' = List.replicate i '\n' :=
          ⟨b'.length, (List.eq_replicate_iff.2 ⟨rfl, fun c hc => (List.mem_replicate.1 (hb'.subset hc)).2⟩)⟩
        simp only [List.length_append, List.length_replicate] at hn
        obtain ⟨n', rfl⟩ : ∃ n', n = n' + i := ⟨n - i, by omega⟩
        have e0 : readStream n' [] = ([], []) := by cases n' <;> rfl
        have e : readStream (n' + i + 1) (write dtoa (.obj obj) ++ List.replicate i '\n')
            = ([(Tree.obj obj).parsed dtoa], []) := by
          have hst := stops_newlines i [] (by intro c h; cases h)
          rw [List.append_nil] at hst
          rw [readStream_obj hd obj _ _ hst]
          have := readStream_newlines i n' []
          rw [List.append_nil] at this
          rw [this, e0]
        rw [e]
        exact ⟨1, by simp, by simp, fun j hj hp => by have := hsh j hj hp; omega, .inl rfl⟩
      · have hstrict : ∃ x, x ≠ [] ∧ write dtoa (.obj obj) = bytes ++ x := by
          rcases List.prefix_or_prefix_of_prefix hpre (List.prefix_append _ _) with ⟨x, hx⟩ | h
          · refine ⟨x, ?_, hx.symm⟩
            rintro rfl
            rw [List.append_nil] at hx
            exact hwr (hx ▸ List.prefix_rfl)
          · exact absurd h hwr
        obtain ⟨x, hx, e⟩ := hstrict
        have e2 : readStream (n + 1) bytes = ([], bytes) := by
          cases bytes with
          | nil => rfl
          | cons c bytes =>
            have hc : c ≠ '\n' := by
              rw [write_obj, List.cons_append, List.cons.injEq] at e
              rw [← e.1]; decide
            rw [readStream, if_neg hc, readValue_part hd obj _ x hx _ e]
        rw [e2]
        exact ⟨0, by simp, by simp, hsh, .inr ⟨_, rfl, hpre⟩⟩

end Blackhole.Wire
