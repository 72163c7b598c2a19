import Verif.Config.Lemmas

/-! # Properties of configuration navigation: C33 -/

namespace Blackhole.Config

/-! ## C33: navigation -/

/-- Navigating along a path of NUL-free keys finds exactly the value the document has there; the node remembers the
path. -/
theorem C33_navigation_partial (doc : Json) (p : List Step) (hp : Plain p) (n : Node) :
    lookup doc p = some n ↔ HasAt doc p n.value ∧ n.cursor = shown p := by
  simpa [lookup, Node.root] using path_iff p hp (Node.root doc) n

/-- A document has at most one value at a path. -/
theorem C33_at_most_one (doc : Json) (p : List Step) (hp : Plain p) (v w : Json) (hv : HasAt doc p v)
    (hw : HasAt doc p w) : v = w := by
  have h1 := (C33_navigation_partial doc p hp ⟨v, shown p⟩).2 ⟨hv, rfl⟩
  have h2 := (C33_navigation_partial doc p hp ⟨w, shown p⟩).2 ⟨hw, rfl⟩
  rw [h1] at h2
  injection h2 with h2
  injection h2

/-- If any step is missing the result is an empty option, for which every conversion gives nothing, no error is
raised, and iteration calls nothing. -/
theorem C33_missing_partial (doc : Json) (p : List Step) (hp : Plain p) (h : ∀ v, ¬ HasAt doc p v) :
    (lookup doc p).toBool = .ok none ∧ (lookup doc p).toSint64 = .ok none ∧ (lookup doc p).toUint64 = .ok none
      ∧ (lookup doc p).toDouble = .ok none ∧ (lookup doc p).toString = .ok none ∧ (lookup doc p).each = .ok []
      ∧ (lookup doc p).eachMap = .ok [] := by
  have hn : lookup doc p = none := by
    cases hl : lookup doc p with
    | none => rfl
    | some n => exact absurd ((C33_navigation_partial doc p hp n).1 hl).1 (h _)
  rw [hn]
  exact ⟨rfl, rfl, rfl, rfl, rfl, rfl, rfl⟩

/-- The value at a path converted to a type: the value itself if it has this type, and otherwise an error that names
the path, the type that was asked for and the type that is there. -/
theorem C33_conversions_partial (doc : Json) (p : List Step) (hp : Plain p) (v : Json) (h : HasAt doc p v) :
    ((lookup doc p).toBool = match v with
      | .bool b => .ok (some b)
      | _ => .error (wrongType p v (ch! "bool")))
    ∧ ((lookup doc p).toSint64 = match v with
      | .int z => if -2 ^ 63 ≤ z ∧ z < 2 ^ 63 then .ok (some z) else .error (wrongType p v (ch! "int64"))
      | _ => .error (wrongType p v (ch! "int64")))
    ∧ ((lookup doc p).toUint64 = match v with
      | .int z => if 0 ≤ z ∧ z < 2 ^ 64 then .ok (some z) else .error (wrongType p v (ch! "uint64"))
      | _ => .error (wrongType p v (ch! "uint64")))
    ∧ ((lookup doc p).toDouble = match v with
      | .double d => .ok (some d)
      | _ => .error (wrongType p v (ch! "double")))
    ∧ (∀ s, v = .str s → '\x00' ∉ s → (lookup doc p).toString = .ok (some s))
    ∧ ((∀ s, v ≠ .str s) → (lookup doc p).toString = .error (wrongType p v (ch! "string"))) := by
  have hn := (C33_navigation_partial doc p hp ⟨v, shown p⟩).2 ⟨h, rfl⟩
  have hm : ∀ e, Node.mismatch ⟨v, shown p⟩ e = { cursor := cursorOf p, expected := e, actual := kindName v } :=
    fun e => (mismatch_at (n := ⟨v, shown p⟩) rfl e).trans (by cases v <;> rfl)
  rw [hn]
  refine ⟨?_, ?_, ?_, ?_, ?_, ?_⟩
  · cases v <;> simp [Opt.toBool, Opt.to, Node.toBool, Except.map, hm, wrongType]
  · cases v <;> simp [Opt.toSint64, Opt.to, Node.toSint64, Except.map, hm, wrongType, Json.isInt64]
    split <;> rename_i heq <;> split at heq <;> simp_all
  · cases v <;> simp [Opt.toUint64, Opt.to, Node.toUint64, Except.map, hm, wrongType, Json.isUint64]
    split <;> rename_i heq <;> split at heq <;> simp_all
  · cases v <;> simp [Opt.toDouble, Opt.to, Node.toDouble, Except.map, hm, wrongType]
  · rintro s rfl hs
    simp [Opt.toString, Opt.to, Node.toString, Except.map, cstr_plain hs]
  · intro hs
    cases v with
    | str s => exact absurd rfl (hs s)
    | _ => simp [Opt.toString, Opt.to, Node.toString, Except.map, hm, wrongType]

/-- Iterating over an array visits its items in order, each with its own path; over anything else it is an error. -/
theorem C33_each_partial (doc : Json) (p : List Step) (hp : Plain p) (v : Json) (h : HasAt doc p v) :
    (∀ items, v = .arr items → ∃ nodes, (lookup doc p).each = .ok nodes ∧ nodes.length = items.length
      ∧ ∀ (i : Nat) x, items[i]? = some x → nodes[i]? = lookup doc (p ++ [.idx i]) ∧ lookup doc (p ++ [.idx i])
          = some ⟨x, shown (p ++ [.idx i])⟩)
    ∧ ((∀ items, v ≠ .arr items) →
        (lookup doc p).each = .error (wrongType p v (ch! "array"))) := by
  have hn := (C33_navigation_partial doc p hp ⟨v, shown p⟩).2 ⟨h, rfl⟩
  refine ⟨?_, ?_⟩
  · rintro items rfl
    refine ⟨children (shown p) 0 items, by rw [hn]; rfl, ?_, ?_⟩
    · have : ∀ k, (children (shown p) k items).length = items.length := by
        induction items with
        | nil => intro k; rfl
        | cons x xs ih =>
          intro k
          have := @ih
          clear ih h hn
          simp only [children, List.length_cons]
          congr 1
          clear this
          induction xs generalizing k with
          | nil => rfl
          | cons y ys ih => simp only [children, List.length_cons, ih]
      exact this 0
    · intro i x hx
      have hsh : ∀ (p : List Step) i, shown (p ++ [.idx i]) = advanceIdx (shown p) i := by
        intro p i
        induction p with
        | nil => simp [shown, advanceIdx, indexStr]
        | cons s p ih => cases s <;> simp [shown, ih, advanceIdx, indexStr]
      have h2 : lookup doc (p ++ [.idx i]) = some ⟨x, shown (p ++ [.idx i])⟩ := by
        have : lookup doc (p ++ [.idx i]) = (lookup doc p).idx i := by simp [lookup, Opt.path, Opt.step]
        rw [this, hn, hsh]
        simp [Opt.idx, Node.idx, hx]
      refine ⟨?_, h2⟩
      rw [h2, hsh]
      have : ∀ (items : List Json) (k i : Nat), items[i]? = some x →
          (children (shown p) k items)[i]? = some ⟨x, advanceIdx (shown p) (k + i)⟩ := by
        intro items
        induction items with
        | nil => intro k i h; simp at h
        | cons y ys ih =>
          intro k i h
          cases i with
          | zero => simp at h; simp [children, h]
          | succ i =>
            simp at h
            simp only [children, List.getElem?_cons_succ, ih (k + 1) i h]
            congr 3
            omega
      simpa using this items 0 i hx
  · intro hv
    rw [hn]
    cases v with
    | arr items => exact absurd rfl (hv items)
    | _ =>
      simp only [Opt.each, Node.each]
      rw [mismatch_at (n := ⟨_, shown p⟩) rfl]
      rfl

/-- Iterating over an object visits its members in order, also those that repeat a name, each with its name and its own
path; over anything else it is an error. -/
theorem C33_each_map_partial (doc : Json) (p : List Step) (hp : Plain p) (v : Json) (h : HasAt doc p v) :
    (∀ members, v = .obj members → (∀ m ∈ members, '\x00' ∉ m.1) →
      (lookup doc p).eachMap = .ok (members.map fun m => (m.1, ⟨m.2, shown (p ++ [.key m.1])⟩)))
    ∧ ((∀ members, v ≠ .obj members) → (lookup doc p).eachMap = .error (wrongType p v (ch! "object"))) := by
  have hn := (C33_navigation_partial doc p hp ⟨v, shown p⟩).2 ⟨h, rfl⟩
  refine ⟨?_, ?_⟩
  · rintro members rfl hm
    have hsh : ∀ (p : List Step) k, shown (p ++ [.key k]) = advanceKey (shown p) k := by
      intro p k
      induction p with
      | nil => simp [shown, advanceKey]
      | cons s p ih => cases s <;> simp [shown, ih, advanceKey]
    rw [hn]
    simp only [Opt.eachMap, Node.eachMap, Except.ok.injEq]
    refine List.map_congr_left ?_
    intro m hmem
    rw [cstr_plain (hm m hmem), hsh]
  · intro hv
    rw [hn]
    cases v with
    | obj members => exact absurd rfl (hv members)
    | _ =>
      simp only [Opt.eachMap, Node.eachMap]
      rw [mismatch_at (n := ⟨_, shown p⟩) rfl]
      rfl

/-- The document used in the examples: `{"root": [{"type": "tcp", "port": 80}], "n": null}`. -/
def sample : Json :=
  .obj [(ch! "root", .arr [.obj [(ch! "type", .str (ch! "tcp")), (ch! "port", .int 80)]]), (ch! "n", .null)]

example : HasAt sample [.key (ch! "root"), .idx 0, .key (ch! "port")] (.int 80) :=
  .key (before := []) (by simp)
    (.idx (i := 0) rfl (.key (before := [(ch! "type", .str (ch! "tcp"))]) (by simp) (.here _)))
example : (lookup sample [.key (ch! "root"), .idx 0, .key (ch! "port")]).toUint64 = .ok (some 80) := rfl
example : (lookup sample [.key (ch! "root"), .idx 0, .key (ch! "port")]).toString
    = .error ⟨ch! "/root/0/port", ch! "string", ch! "number"⟩ := rfl
example : (lookup sample [.key (ch! "root"), .idx 1, .key (ch! "port")]).toUint64 = .ok none := rfl

example : (lookup sample [.key (ch! "root"), .idx 0]).eachMap.toOption.map (·.map fun m => (m.1, m.2.cursor))
    = some [(ch! "type", ch! "/root/0/type"), (ch! "port", ch! "/root/0/port")] := rfl

/-- A string that contains NUL is cut there. -/
theorem C33_fails_nul_string :
    ∃ doc p s, HasAt doc p (.str s) ∧ Plain p ∧ (lookup doc p).toString ≠ .ok (some s) := by
  refine ⟨.str (ch! "a\x00b"), [], ch! "a\x00b", .here _, ?_, ?_⟩
  · intro k hk; cases hk
  · intro h
    have h2 : (lookup (.str (ch! "a\x00b")) []).toString = .ok (some (ch! "a")) := rfl
    rw [h2] at h
    exact absurd h (by simp)

/-- A key that contains NUL is looked up by what comes before. -/
theorem C33_fails_nul_key :
    ∃ doc p v, HasAt doc p v ∧ lookup doc p = none :=
  ⟨.obj [(ch! "a\x00b", .null)], [.key (ch! "a\x00b")], .null,
    .key (before := []) (by simp) (.here _), rfl⟩

/-! ## Helpers for the factories -/

theorem lookup_snoc (doc : Json) (p : List Step) (node : Node) (h : lookup doc p = some node) (k : Str) :
    lookup doc (p ++ [.key k]) = node.key k := by
  have : lookup doc (p ++ [.key k]) = (lookup doc p).key k := by simp [lookup, Opt.path, Opt.step]
  rw [this, h]
  rfl

theorem plain_snoc {p : List Step} (hp : Plain p) {k : Str} (hk : '\x00' ∉ k) : Plain (p ++ [.key k]) := by
  intro k' hk'
  rcases List.mem_append.1 hk' with h | h
  · exact hp k' h
  · simp at h; subst h; exact hk

theorem none_of_not {doc : Json} {p : List Step} (hp : Plain p) (h : ∀ v, ¬ HasAt doc p v) :
    lookup doc p = none := by
  cases hl : lookup doc p with
  | none => rfl
  | some n => exact absurd ((C33_navigation_partial doc p hp n).1 hl).1 (h _)

theorem some_of {doc : Json} {p : List Step} (hp : Plain p) {v : Json} (h : HasAt doc p v) :
    lookup doc p = some ⟨v, shown p⟩ :=
  (C33_navigation_partial doc p hp ⟨v, shown p⟩).2 ⟨h, rfl⟩

end Blackhole.Config
