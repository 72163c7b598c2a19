import Verif.Json.Lemmas
import Verif.Tskv.Props
import Verif.Pattern.Grammar

/-! # C28, C29: the JSON tree -/

namespace Blackhole.Json

open Rec StringFmt

/-! ## Fields -/

theorem lookup_routes (name : Str) (rs : List (Str × List Str)) :
    Tskv.lookup name (rs.flatMap fun r => r.2.map fun n => (n, r.1))
      = (rs.find? fun r => decide (name ∈ r.2)).map (·.1) := by
  have one : ∀ (p : Str) (ns : List Str) (tl : List (Str × Str)),
      Tskv.lookup name (ns.map (fun n => (n, p)) ++ tl) = if name ∈ ns then some p else Tskv.lookup name tl := by
    intro p ns tl
    induction ns with
    | nil => simp
    | cons n ns ih =>
      by_cases h : n = name
      · simp [Tskv.lookup, h]
      · simp only [List.map_cons, List.cons_append, Tskv.lookup, if_neg h, ih, List.mem_cons]
        simp [Ne.symm h]
  induction rs with
  | nil => rfl
  | cons r rs ih =>
    rw [List.flatMap_cons, one, ih]
    by_cases h : name ∈ r.2 <;> simp [h]

theorem pointer_eq (d : Data) (name : Str) : d.pointer name = routeText d name := by
  rw [Data.pointer, Data.routing, lookup_routes, routeText]
  cases d.specified.find? fun r => decide (name ∈ r.2) <;> rfl

theorem renamed_eq (d : Data) (name : Str) : d.renamed name = shownAs d name := by
  rw [Data.renamed, shownAs]
  cases Tskv.lookup name d.mapping <;> rfl

theorem present_shows {env : Env} {d : Data} {name : Str} {native l : Leaf} {a : Fmt.Arg}
    {text : Str → Except Exc Str} (ht : ∀ spec s, env.write spec a = .ok s → Tskv.lookup name d.formatting = some spec →
      text spec = .ok s)
    (h : Shows env d name native a l) : present d name text (.ok native) = .ok l := by
  unfold Shows at h
  unfold present
  cases hl : Tskv.lookup name d.formatting with
  | none => rw [hl] at h; rw [h]
  | some spec =>
    rw [hl] at h
    obtain ⟨s, h1, rfl⟩ := h
    simp only [ht spec s h1 hl, Except.map]

theorem applyView_shows {env : Env} {d : Data} {name s : Str} {l : Leaf}
    (h : Shows env d name (.str s) (.str s ['\x00']) l) : applyView env d name s = .ok l :=
  present_shows (fun _ _ h _ => h) h

theorem applyInt_shows {env : Env} {d : Data} {name : Str} {z : Int} {a : Fmt.Arg} {l : Leaf}
    (h : Shows env d name (.int z) a l) : applyInt env d name a z = .ok l := present_shows (fun _ _ h _ => h) h

theorem applyBuffer_shows {env : Env} {d : Data} {name s : Str} {l : Leaf}
    (he : s = [] → Tskv.lookup name d.formatting = none)
    (h : Shows env d name (.str s) (.str s []) l) : applyBuffer env d name s = .ok l := by
  refine present_shows (fun spec t ht hl => ?_) h
  rw [if_neg, ht]
  intro hs
  rw [he hs] at hl
  cases hl

theorem write_hex (env : Env) {n : Nat} (h : n < 2 ^ 64) :
    env.write (ch! "{:#x}") (.ulong n) = .ok (ch! "0x" ++ Nat.toDigits 16 n) := by
  have hv : (⟨none, none, true, false, none, none, some 'x'⟩ : Fmt.SpecText).Valid :=
    ⟨by simp, by simp, by simp, by simp, by simp, by simp; decide, by simp [Fmt.SpecText.print]⟩
  have := Fmt.format_spec env.fd (.ulong n) ⟨none, none, true, false, none, none, some 'x'⟩ hv
    ⟨by simp [Fmt.Arg.isNumeric, Fmt.Arg.isInteger], by simp, by simp⟩
  rw [Fmt.C45_text env.fd _ _ _ (.ulong h)] at this
  simp only [Env.write]
  rw [show ch! "{:#x}" = ch! "{:" ++ (⟨none, none, true, false, none, none, some 'x'⟩ : Fmt.SpecText).print ++ ch! "}"
    from rfl, this]
  simp [Fmt.intDigits, Fmt.layout, Fmt.signText, Fmt.SpecText.meaning]

theorem threadLeaf_shows {env : Env} {d : Data} {r : Record} {l : Leaf} (htid : r.tid < 2 ^ 64)
    (h : Shows env d (ch! "thread") (.str (ch! "0x" ++ Nat.toDigits 16 r.tid)) (.str (ch! "0x" ++ Nat.toDigits 16 r.tid) []) l) :
    threadLeaf env d r = .ok l := by
  rw [threadLeaf, write_hex env htid]
  exact applyBuffer_shows (by simp) h

theorem severityLeaf_shows {env : Env} {d : Data} {r : Record} {l : Leaf} (hs1 : -2 ^ 31 ≤ r.severity)
    (hs2 : r.severity < 2 ^ 31) (hn : d.severity.length < 2 ^ 63) (h : SeverityShows env d r.severity l) :
    severityLeaf env d r = .ok l := by
  unfold severityLeaf
  rcases h with ⟨name, h0, h1, h2⟩ | ⟨h0, h2⟩
  · have e : (r.severity % 2 ^ 64).toNat = r.severity.toNat := by omega
    rw [e, h1]
    exact applyView_shows h2
  · have e : d.severity[(r.severity % 2 ^ 64).toNat]? = none := by
      rw [List.getElem?_eq_none]
      omega
    rw [e]
    exact applyInt_shows h2

theorem timestampLeaf_shows {env : Env} {clock : Clock} {d : Data} {r : Record} {l : Leaf}
    (h : TimestampShows env clock d r.timestamp l) : timestampLeaf env clock d r = .ok l := by
  unfold timestampLeaf
  rcases h with ⟨p, s, h1, h2, h3, h4⟩ | ⟨h1, h2⟩
  · rw [h1]
    simp only [h2]
    exact applyBuffer_shows h3 h4
  · rw [h1]
    exact applyInt_shows h2

theorem applyValue_shows {env : Env} {d : Data} {a : View × Value} {f : Str × Leaf} (h : AttributeShows env d a f) :
    f.1 = a.1.text ∧ applyValue env d a.1.text a.2 = .ok f.2 := by
  cases h with
  | null h => exact ⟨rfl, present_shows (fun _ _ h _ => h) h⟩
  | bool h => exact ⟨rfl, present_shows (fun _ _ h _ => h) h⟩
  | sint h => exact ⟨rfl, present_shows (fun _ _ h _ => h) h⟩
  | uint h => exact ⟨rfl, present_shows (fun _ _ h _ => h) h⟩
  | double h => exact ⟨rfl, present_shows (fun _ _ h _ => h) h⟩
  | string h => exact ⟨rfl, present_shows (fun _ _ h _ => h) h⟩
  | @function n s =>
    refine ⟨rfl, ?_⟩
    unfold applyValue present
    cases Tskv.lookup n.text d.formatting <;> rfl

/-! ## C29 -/

theorem uniques_eq (seen : List Str) (as : List (View × Value)) :
    uniques seen as = (firsts as).filter fun a => a.1.text ∉ seen := by
  induction as generalizing seen with
  | nil => rfl
  | cons a as ih =>
    rw [uniques, firsts, List.filter_cons]
    by_cases h : a.1.text ∈ seen
    · simp only [h, if_true, not_true_eq_false, decide_false, Bool.false_eq_true, if_false, ih, List.filter_filter]
      apply List.filter_congr
      intro b _
      by_cases hb : b.1.text ∈ seen
      · simp [hb]
      · have : b.1.text ≠ a.1.text := fun e => hb (e ▸ h)
        simp [hb, this]
    · simp only [h, if_false, not_false_eq_true, decide_true, if_true, ih, List.filter_filter]
      congr 1
      apply List.filter_congr
      intro b _
      simp [not_or, Bool.and_comm]

theorem visited_eq (d : Data) (pack : Pack) :
    visited d pack = if d.unique then firsts pack.flatten else pack.flatten := by
  have e : uniques [] pack.flatten = firsts pack.flatten := by
    rw [uniques_eq]
    simp [List.filter_eq_self]
  rw [visited, e]

theorem fields_show {env : Env} {clock : Clock} {d : Data} {r : Record} {fs : List (Str × Leaf)}
    (htid : r.tid < 2 ^ 64) (hs1 : -2 ^ 31 ≤ r.severity)
    (hs2 : r.severity < 2 ^ 31) (hn : d.severity.length < 2 ^ 63) (h : FieldsShow env clock d r fs) :
    fields env clock d r = fs.map fun f => (f.1, .ok f.2) := by
  obtain ⟨m, lw, th, p, sv, ts, as, rfl, h1, h2, h3, h4, h5, h6, h7⟩ := h
  unfold fields
  rw [applyView_shows h1, applyInt_shows h2, threadLeaf_shows htid h3, applyInt_shows h4,
    severityLeaf_shows hs1 hs2 hn h5, timestampLeaf_shows h6, visited_eq]
  simp only [List.map_cons, List.cons_append, List.nil_append, List.cons.injEq, true_and]
  generalize (if d.unique then firsts r.pack.flatten else r.pack.flatten) = l at h7
  induction h7 with
  | nil => rfl
  | cons h _ ih =>
    obtain ⟨e1, e2⟩ := applyValue_shows h
    rw [List.map_cons, List.map_cons, ih, e2, e1]

/-! ## C28 -/

/-- What the tree looks like after some fields. -/
structure Built (d : Data) (place : Str → List Str) (fs : List (Str × Leaf)) (t : Tree) : Prop where
  obj : ∃ ms, t = .obj ms
  noArrays : NoArrays t
  values : ∀ L, t.valuesAt L = (fs.filter fun f => place f.1 = L).map fun f => (shownAs d f.1, f.2)
  nodup : ∀ L, (t.groupsAt L).Nodup
  groups : ∀ L k, k ∈ t.groupsAt L ↔ ∃ f ∈ fs, L ++ [k] <+: place f.1

theorem built_nil (d : Data) (place : Str → List Str) : Built d place [] (.obj []) where
  obj := ⟨[], rfl⟩
  noArrays := by
    intro L xs h
    cases L with
    | nil => simp [Tree.at?] at h
    | cons j L => simp [at?_obj_cons, child] at h
  values := by
    intro L
    cases L with
    | nil => rfl
    | cons j L => rw [Tree.valuesAt, Tree.membersAt, at?_obj_cons]; rfl
  nodup := by
    intro L
    cases L with
    | nil => simp [Tree.groupsAt, Tree.membersAt, Tree.at?, members]
    | cons j L => rw [Tree.groupsAt, Tree.membersAt, at?_obj_cons]; simp [child, members]
  groups := by
    intro L k
    cases L with
    | nil => simp [Tree.groupsAt, Tree.membersAt, Tree.at?, members]
    | cons j L => rw [Tree.groupsAt, Tree.membersAt, at?_obj_cons]; simp [child, members]

theorem place_ok {d : Data} {placeOf : Str → List Str} {fs : List (Str × Leaf)} {f : Str × Leaf} {t : Tree}
    (hp : Points (routeText d f.1) (placeOf f.1)) (hi : ∀ k ∈ (placeOf f.1).tail, NotIndex k)
    (hc : ∀ g ∈ fs, ¬ placeOf g.1 ++ [shownAs d g.1] <+: placeOf f.1)
    (hb : Built d placeOf fs t) : ∃ t', place d t f.1 (.ok f.2) = .ok t' ∧ Built d placeOf (fs ++ [f]) t' := by
  have hfree : Free (placeOf f.1) t := by
    refine free_of _ t hb.obj hb.noArrays ?_
    intro L k l hl
    rw [hb.values, List.mem_map] at hl
    obtain ⟨g, hg, e⟩ := hl
    rw [List.mem_filter] at hg
    have e2 : placeOf g.1 = L := of_decide_eq_true hg.2
    have := hc g hg.1
    rw [e2] at this
    simp only [Prod.mk.injEq] at e
    rwa [e.1] at this
  refine ⟨ins (shownAs d f.1, .leaf f.2) (placeOf f.1) t, ?_, ?_⟩
  · unfold place
    rw [pointer_eq, parsePointer_points hp]
    simp only
    rw [withDefault_eq _ _ _ (fun k hk => index_none (hi k hk)) t hfree, renamed_eq]
  · constructor
    · exact ins_obj _ _ _
    · exact noArrays_ins _ _ _ _ hfree hb.noArrays
    · intro L
      rw [valuesAt_ins _ _ _ _ _ hfree, hb.values, List.filter_append, List.map_append]
      congr 1
      by_cases h : L = placeOf f.1
      · simp [h]
      · simp [h, Ne.symm h]
    · intro L
      obtain ⟨new, h1, _, h3, h4⟩ := groupsAt_ins (shownAs d f.1) f.2 (placeOf f.1) L t hfree
      rw [h1]
      rw [List.nodup_append]
      refine ⟨hb.nodup L, h3, ?_⟩
      intro a ha b hbn e
      subst e
      exact h4 a hbn ha
    · intro L k
      obtain ⟨new, h1, h2, _, _⟩ := groupsAt_ins (shownAs d f.1) f.2 (placeOf f.1) L t hfree
      rw [h1, List.mem_append, h2, hb.groups]
      constructor
      · rintro (⟨g, hg, h⟩ | h)
        · exact ⟨g, List.mem_append_left _ hg, h⟩
        · exact ⟨f, by simp, h⟩
      · rintro ⟨g, hg, h⟩
        rcases List.mem_append.mp hg with hg | hg
        · exact .inl ⟨g, hg, h⟩
        · rw [List.mem_singleton] at hg
          subst hg
          exact .inr h

theorem placeAll_ok {d : Data} {placeOf : Str → List Str} (rest : List (Str × Leaf)) :
    ∀ (done : List (Str × Leaf)) (t : Tree),
    (∀ f ∈ rest, Points (routeText d f.1) (placeOf f.1)) → (∀ f ∈ rest, ∀ k ∈ (placeOf f.1).tail, NotIndex k) →
    NoCollision d placeOf (done ++ rest) → Built d placeOf done t →
    ∃ t', placeAll d t (rest.map fun f => (f.1, .ok f.2)) = .ok t' ∧ Built d placeOf (done ++ rest) t' := by
  induction rest with
  | nil =>
    intro done t _ _ _ hb
    exact ⟨t, rfl, by simpa using hb⟩
  | cons f rest ih =>
    intro done t hp hi hc hb
    obtain ⟨t1, h1, hb1⟩ := place_ok (hp f List.mem_cons_self) (hi f List.mem_cons_self)
      (fun g hg => hc g (by simp [hg]) f (by simp)) hb
    obtain ⟨t2, h2, hb2⟩ := ih (done ++ [f]) t1 (fun g hg => hp g (List.mem_cons_of_mem _ hg))
      (fun g hg => hi g (List.mem_cons_of_mem _ hg)) (by simpa using hc) hb1
    refine ⟨t2, ?_, by simpa using hb2⟩
    rw [List.map_cons, placeAll, h1]
    exact h2

/-- **C28.** Let every field of the record be routed to a place that is reached through names of which at most the first
looks like an array index, and let no field be at a place through which another one is reached. Then the record is formatted, and in the tree:
at every place the values are exactly the fields that are routed there by their original names, under their configured
names, in the order message, lwp, thread, process, severity, timestamp, attributes; and the objects are exactly those that
lead to such places, each once. -/
theorem C28_tree_partial (env : Env) (clock : Clock) (d : Data) (r : Record) (fs : List (Str × Leaf))
    (placeOf : Str → List Str) (htid : r.tid < 2 ^ 64) (hs1 : -2 ^ 31 ≤ r.severity) (hs2 : r.severity < 2 ^ 31)
    (hn : d.severity.length < 2 ^ 63) (hf : FieldsShow env clock d r fs)
    (hp : ∀ f ∈ fs, Points (routeText d f.1) (placeOf f.1)) (hi : ∀ f ∈ fs, ∀ k ∈ (placeOf f.1).tail, NotIndex k)
    (hc : NoCollision d placeOf fs) :
    ∃ t, tree env clock d r = .ok t
      ∧ (∀ dtoa, format env clock dtoa d r = .ok (write dtoa t ++ if d.newline then ['\n'] else []))
      ∧ (∀ L, t.valuesAt L = (fs.filter fun f => placeOf f.1 = L).map fun f => (shownAs d f.1, f.2))
      ∧ (∀ L k, k ∈ t.groupsAt L ↔ ∃ f ∈ fs, L ++ [k] <+: placeOf f.1)
      ∧ (∀ L, (t.groupsAt L).Nodup) := by
  obtain ⟨t, h1, h2⟩ := placeAll_ok fs [] (.obj []) hp hi (by simpa using hc) (built_nil d placeOf)
  rw [← fields_show htid hs1 hs2 hn hf] at h1
  refine ⟨t, h1, ?_, h2.values, h2.groups, h2.nodup⟩
  intro dtoa
  rw [format, tree, h1]

/-- Without formats, names for severities and a pattern for the time. -/
def plain (specified : List (Str × List Str)) (unspecified : Str) (mapping : List (Str × Str)) (unique : Bool) : Data where
  unique
  newline := false
  timestamp := none
  severity := []
  specified
  unspecified
  mapping
  formatting := []

/-- A record whose attributes are texts. -/
def sample (attributes : List (Str × Str)) : Record where
  message := .at (ch! "hi") []
  severity := 2
  timestamp := 5000
  tid := 1
  pack := [attributes.map fun a => (.at a.1 [], .string (.at a.2 []))]

/-- The fields of such a record. -/
def sampleFields (env : Env) (attributes : List (Str × Str)) : List (Str × Leaf) :=
  [(ch! "message", .str (ch! "hi")), (ch! "lwp", .int env.lwp), (ch! "thread", .str (ch! "0x1")),
   (ch! "process", .int env.pid), (ch! "severity", .int 2), (ch! "timestamp", .int 5)]
  ++ attributes.map fun a => (a.1, .str a.2)

theorem sample_shows (env : Env) (clock : Clock) (specified : List (Str × List Str)) (unspecified : Str)
    (mapping : List (Str × Str)) (attributes : List (Str × Str)) :
    FieldsShow env clock (plain specified unspecified mapping false) (sample attributes) (sampleFields env attributes) := by
  have h : Nat.toDigits 16 1 = ['1'] := by decide
  refine ⟨_, _, _, _, _, _, _, rfl, rfl, rfl, ?_, rfl, .inr ⟨.inr (Nat.zero_le _), rfl⟩, .inr ⟨rfl, rfl⟩, ?_⟩
  · simp [Shows, plain, Tskv.lookup, sample, h]
  simp only [plain, sample, List.flatten_cons, List.flatten_nil, List.append_nil, Bool.false_eq_true, if_false]
  induction attributes with
  | nil => exact .nil
  | cons a as ih => exact .cons (.string rfl) ih

/-- The tree of such a record. -/
theorem sample_tree (env : Env) (clock : Clock) (specified : List (Str × List Str)) (unspecified : Str)
    (mapping : List (Str × Str)) (attributes : List (Str × Str)) :
    tree env clock (plain specified unspecified mapping false) (sample attributes)
      = placeAll (plain specified unspecified mapping false) (.obj [])
        ((sampleFields env attributes).map fun f => (f.1, .ok f.2)) := by
  rw [tree, fields_show (by simp [sample]) (by simp [sample]) (by simp [sample]) (by simp [plain]) (sample_shows ..)]

example (env : Env) (clock : Clock) :
    let d := plain [(ch! "", [ch! "message"]), (ch! "/7/b~1", [ch! "k"])] (ch! "#/f%c3%A9~1") [(ch! "k", ch! "message")] false
    let fs := sampleFields env [(ch! "k", ch! "v")]
    let placeOf := fun name : Str => if name = ch! "message" then [] else if name = ch! "k" then [ch! "7", ch! "b/"]
      else [['f', Char.ofNat 0xC3, Char.ofNat 0xA9, '/']]
    (∀ f ∈ fs, Points (routeText d f.1) (placeOf f.1)) ∧ (∀ f ∈ fs, ∀ k ∈ (placeOf f.1).tail, NotIndex k)
    ∧ NoCollision d placeOf fs ∧ FieldsShow env clock d (sample [(ch! "k", ch! "v")]) fs := by
  refine ⟨?_, ?_, ?_, sample_shows ..⟩
  · have h1 : Points [] [] := .string []
    have h2 : Points (ch! "#/f%c3%A9~1") [['f', Char.ofNat 0xC3, Char.ofNat 0xA9, '/']] :=
      .fragment (names := [ch! "fé/"]) (.cons (s := ch! "f%c3%A9~1") (rest := [])
        (.char (w := ['f']) (by decide) (by decide) (.plain (.inl rfl))
          (.char (w := ch! "%c3%A9") (by decide) (by decide) (.percent (.cons rfl rfl rfl (.cons rfl rfl rfl .nil)))
            (.slash (tilde := ['~']) (.plain (.inr (by simp))) .nil))) .nil)
    have h3 : Points (ch! "/7/b~1") [ch! "7", ch! "b/"] := .string [ch! "7", ch! "b/"]
    simp only [sampleFields, List.map_cons, List.map_nil, List.cons_append, List.nil_append, List.forall_mem_cons]
    exact ⟨h1, h2, h2, h2, h2, h2, h3, by simp⟩
  · simp [sampleFields, NotIndex]
  · simp [sampleFields, NoCollision, shownAs, plain, Tskv.lookup]

/-- A route that leads through a field takes its place: the message is lost. -/
theorem C28_fails_through (env : Env) (clock : Clock) :
    ∃ t, tree env clock (plain [(ch! "/message/x", [ch! "k"])] [] [] false) (sample [(ch! "k", ch! "v")]) = .ok t
      ∧ t.at? [ch! "message"] = some (.obj [(ch! "x", .obj [(ch! "k", .leaf (.str (ch! "v")))])])
      ∧ ch! "message" ∉ (t.valuesAt []).map (·.1) := by
  rw [sample_tree]
  exact ⟨_, rfl, rfl, by simp [Tree.valuesAt, Tree.membersAt, Tree.at?, members, leafOf, Data.renamed, plain, Tskv.lookup]⟩

/-- A route that ends at a field violates an assertion. -/
theorem C28_fails_onto (env : Env) (clock : Clock) :
    tree env clock (plain [(ch! "/message", [ch! "k"])] [] [] false) (sample [(ch! "k", ch! "v")])
      = .error (.ub .assertion) := by
  rw [sample_tree]
  rfl

/-- A pointer that is not valid violates an assertion when the first field is routed there. -/
theorem C28_fails_pointer (env : Env) (clock : Clock) :
    tree env clock (plain [] (ch! "fields") [] false) (sample []) = .error (.ub .assertion) := by
  rw [sample_tree]
  rfl

/-- In the form that begins with `#` so does a character that could stand there by the rules for URIs, like `:`. -/
theorem C28_fails_fragment (env : Env) (clock : Clock) :
    tree env clock (plain [] (ch! "#/a:b") [] false) (sample []) = .error (.ub .assertion) := by
  rw [sample_tree]
  rfl

/-- The pointer `/`, which is documented as the root, is a member with an empty name. -/
theorem C28_fails_root (env : Env) (clock : Clock) :
    ∃ t, tree env clock (plain [] (ch! "/") [] false) (sample []) = .ok t
      ∧ t.valuesAt [] = [] ∧ (t.valuesAt [[]]).length = 6 := by
  rw [sample_tree]
  exact ⟨_, rfl, rfl, rfl⟩

theorem fold_ge (s : Str) (n : Nat) : n ≤ s.foldl (fun n c => n * 10 + (c.toNat - '0'.toNat)) n := by
  induction s generalizing n with
  | nil => exact Nat.le_refl _
  | cons c s ih =>
    rw [List.foldl_cons]
    exact Nat.le_trans (show n ≤ n * 10 + (c.toNat - '0'.toNat) by omega) (ih _)

theorem index32_eq (s : Str) (n : Nat) (h : s.foldl (fun n c => n * 10 + (c.toNat - '0'.toNat)) n < 2 ^ 32 - 1) :
    index32 n s = some (s.foldl (fun n c => n * 10 + (c.toNat - '0'.toNat)) n) := by
  induction s generalizing n with
  | nil => exact if_neg (by have : n < 2 ^ 32 - 1 := h; omega)
  | cons c s ih =>
    have h' : s.foldl (fun n c => n * 10 + (c.toNat - '0'.toNat)) (n * 10 + (c.toNat - '0'.toNat)) < 2 ^ 32 - 1 := h
    have hm := fold_ge s (n * 10 + (c.toNat - '0'.toNat))
    rw [index32, Nat.mod_eq_of_lt (by omega), if_neg (by omega)]
    exact ih _ h'

theorem index_toDigits (i : Nat) (h32 : i < 2 ^ 32 - 1) : index (Nat.toDigits 10 i) = some i := by
  have hall : (Nat.toDigits 10 i).all Char.isDigit = true := by
    rw [List.all_eq_true]
    exact fun c hc => Nat.isDigit_of_mem_toDigits (by decide) (by decide) hc
  have hne : Nat.toDigits 10 i ≠ [] := by
    have : 0 < (Nat.toDigits 10 i).length := Nat.length_toDigits_pos
    intro e; rw [e] at this; cases this
  have hz : (Nat.toDigits 10 i).head? = some '0' → Nat.toDigits 10 i = ['0'] := by
    intro h
    by_cases hi : i = 0
    · subst hi; rfl
    · exfalso
      revert h
      clear h32
      induction i using Nat.strongRecOn with
      | _ i ih =>
        rw [Nat.toDigits_eq_if (by decide)]
        split
        · rename_i h10
          have : ∀ n : Fin 10, n.val ≠ 0 → Nat.digitChar n.val ≠ '0' := by decide
          simpa using this ⟨i, h10⟩ hi
        · rename_i h10
          have hpos : 0 < (Nat.toDigits 10 (i / 10)).length := Nat.length_toDigits_pos
          have hn : Nat.toDigits 10 (i / 10) ≠ [] := by intro e; rw [e] at hpos; cases hpos
          rw [List.head?_append, List.head?_eq_some_head hn, Option.some_or, ← List.head?_eq_some_head hn]
          refine ih (i / 10) (by omega) ?_ hn (by omega)
          rw [List.all_eq_true]
          exact fun c hc => Nat.isDigit_of_mem_toDigits (by decide) (by decide) hc
  unfold index
  rw [if_pos ⟨hne, hall, hz⟩]
  have e : (Nat.toDigits 10 i).foldl (fun n c => n * 10 + (c.toNat - '0'.toNat)) 0 = i := Pattern.decimal_toDigits i
  rw [index32_eq _ _ (by rw [e]; exact h32), e]

theorem alterAt_empty (f : Option Tree → Except Exc Tree) (t : Tree) (h : f none = .ok t) (i : Nat) :
    alterAt f i [] = .ok (List.replicate i (.leaf .null) ++ [t]) := by
  induction i with
  | zero => rw [alterAt, h]; rfl
  | succ i ih => rw [alterAt, ih]; rfl

/-- A numeric name below a new object makes it an array, with nulls up to the element of that number. -/
theorem C28_fails_array (env : Env) (clock : Clock) (i : Nat) (h32 : i < 2 ^ 32 - 1) :
    ∃ t, tree env clock (plain [(pointerText [ch! "a", Nat.toDigits 10 i], [ch! "k"])] [] [] false)
        (sample [(ch! "k", ch! "v")]) = .ok t
      ∧ t.at? [ch! "a"]
        = some (.arr (List.replicate i (.leaf .null) ++ [.obj [(ch! "k", .leaf (.str (ch! "v")))]])) := by
  rw [sample_tree]
  generalize hp : pointerText [ch! "a", Nat.toDigits 10 i] = p
  have hpp : parsePointer p = some [ch! "a", Nat.toDigits 10 i] := by rw [← hp, parsePointer_text]
  have hk : (plain [(p, [ch! "k"])] [] [] false).pointer (ch! "k") = p := rfl
  let t0 : Tree := .obj [(ch! "message", .leaf (.str (ch! "hi"))), (ch! "lwp", .leaf (.int env.lwp)),
    (ch! "thread", .leaf (.str (ch! "0x1"))), (ch! "process", .leaf (.int env.pid)), (ch! "severity", .leaf (.int 2)),
    (ch! "timestamp", .leaf (.int 5))]
  have e : placeAll (plain [(p, [ch! "k"])] [] [] false) (.obj [])
      ((sampleFields env [(ch! "k", ch! "v")]).map fun f => (f.1, .ok f.2))
    = placeAll (plain [(p, [ch! "k"])] [] [] false) t0 [(ch! "k", .ok (.str (ch! "v")))] := rfl
  rw [e]
  have hone : place (plain [(p, [ch! "k"])] [] [] false) t0 (ch! "k") (.ok (.str (ch! "v")))
      = withDefault (addMember (ch! "k") (.str (ch! "v"))) [ch! "a", Nat.toDigits 10 i] true t0 := by
    unfold place
    rw [hk, hpp]
    rfl
  rw [placeAll, hone]
  have hd : withDefault (addMember (ch! "k") (.str (ch! "v"))) [Nat.toDigits 10 i] false (.leaf .null)
      = .ok (.arr (List.replicate i (.leaf .null) ++ [.obj [(ch! "k", .leaf (.str (ch! "v")))]])) := by
    unfold withDefault
    simp only [container, index_toDigits i h32, Option.isSome_some, if_true]
    rw [alterAt_empty _ (.obj [(ch! "k", .leaf (.str (ch! "v")))]) rfl]
    rfl
  unfold withDefault
  simp only [t0, container, alter]
  simp (decide := true) only [if_false, hd, Except.map]
  exact ⟨_, rfl, rfl⟩

/-- If a place is reached through an index first and through a name later, what was below it is lost: here the message. -/
theorem C28_fails_mixed (env : Env) (clock : Clock) :
    ∃ t, tree env clock (plain [(ch! "/a/0", [ch! "message"]), (ch! "/a/b", [ch! "k"])] [] [] false)
        (sample [(ch! "k", ch! "v")]) = .ok t
      ∧ t.at? [ch! "a"] = some (.obj [(ch! "b", .obj [(ch! "k", .leaf (.str (ch! "v")))])]) := by
  rw [sample_tree]
  exact ⟨_, rfl, rfl⟩

/-- An element that was only there to fill the array cannot be a place for fields. -/
theorem C28_fails_filler (env : Env) (clock : Clock) :
    tree env clock (plain [(ch! "/a/0", [ch! "k"]), (ch! "/a/1", [ch! "message"])] [] [] false)
      (sample [(ch! "k", ch! "v")]) = .error (.ub .assertion) := by
  rw [sample_tree]
  rfl

/-- The name `-` in an array is a new place for every field. -/
theorem C28_fails_append (env : Env) (clock : Clock) :
    ∃ t, tree env clock (plain [(ch! "/a/0", [ch! "message"]), (ch! "/a/-", [ch! "j", ch! "k"])] [] [] false)
        (sample [(ch! "j", ch! "u"), (ch! "k", ch! "v")]) = .ok t
      ∧ t.at? [ch! "a"] = some (.arr [.obj [(ch! "message", .leaf (.str (ch! "hi")))],
          .obj [(ch! "j", .leaf (.str (ch! "u")))], .obj [(ch! "k", .leaf (.str (ch! "v")))]]) := by
  rw [sample_tree]
  exact ⟨_, rfl, rfl⟩

/-- **C29.** With `unique`, a record is formatted like one that has, of the attributes with the same name, only the first;
without it all are formatted. -/
theorem C29_unique (env : Env) (clock : Clock) (dtoa : Nat → Str) (d : Data) (r : Record) :
    format env clock dtoa { d with unique := true } r
      = format env clock dtoa { d with unique := false } { r with pack := [firsts r.pack.flatten] } := by
  have h : fields env clock { d with unique := true } r
      = fields env clock { d with unique := false } { r with pack := [firsts r.pack.flatten] } := by
    simp only [fields, visited_eq, if_true, List.flatten_cons, List.flatten_nil, List.append_nil, Bool.false_eq_true,
      if_false]
    rfl
  have hp : ∀ (l : List (Str × Except Exc Leaf)) (t : Tree),
      placeAll { d with unique := true } t l = placeAll { d with unique := false } t l := by
    intro l
    induction l with
    | nil => intro t; rfl
    | cons f l ih =>
      intro t
      simp only [placeAll]
      rw [show place { d with unique := true } t f.1 f.2 = place { d with unique := false } t f.1 f.2 from rfl]
      cases place { d with unique := false } t f.1 f.2 with
      | error e => rfl
      | ok t => exact ih t
  simp only [format, tree, h, hp]

/-- An attribute is among them if and only if no earlier one has its name. -/
theorem C29_first (as : List (View × Value)) :
    firsts as = (as.zipIdx.filter fun x => (as.take x.2).all fun b => b.1.text ≠ x.1.1.text).map (·.1) := by
  suffices h : ∀ (pre suf : List (View × Value)),
      (firsts suf).filter (fun a => pre.all fun b => b.1.text ≠ a.1.text)
        = ((suf.zipIdx pre.length).filter fun x => ((pre ++ suf).take x.2).all fun b => b.1.text ≠ x.1.1.text).map (·.1) by
    have := h [] as
    rw [List.nil_append, List.length_nil] at this
    rw [← this]
    symm
    rw [List.filter_eq_self]
    intro a _
    rfl
  intro pre suf
  induction suf generalizing pre with
  | nil => rfl
  | cons a suf ih =>
    have ih := ih (pre ++ [a])
    rw [List.append_assoc, List.singleton_append, List.length_append, List.length_singleton] at ih
    rw [firsts, List.zipIdx_cons, List.filter_cons, List.filter_cons, List.take_left]
    have e : (List.filter (fun a => pre.all fun b => b.1.text ≠ a.1.text) (List.filter (fun b => b.1.text ≠ a.1.text) (firsts suf)))
        = (firsts suf).filter (fun x => (pre ++ [a]).all fun b => b.1.text ≠ x.1.text) := by
      rw [List.filter_filter]
      apply List.filter_congr
      intro b _
      simp only [List.all_append, List.all_cons, List.all_nil, Bool.and_true, ne_comm]
    rw [e, ih]
    split <;> rfl

/-- So no two of them have the same name. -/
theorem C29_distinct (as : List (View × Value)) : ((firsts as).map fun a => a.1.text).Nodup := by
  induction as with
  | nil => simp [firsts]
  | cons a as ih =>
    rw [firsts, List.map_cons, List.nodup_cons]
    refine ⟨by simp, ?_⟩
    exact ih.sublist (List.Sublist.map _ List.filter_sublist)

example : firsts [(.at (ch! "a") [], .uint 1), (.at (ch! "b") [], .uint 2), (.at (ch! "a") [], .uint 3)]
    = [(.at (ch! "a") [], .uint 1), (.at (ch! "b") [], .uint 2)] := rfl

/-- The keys of the resulting object need not be unique: an attribute may be named like a built-in field. -/
theorem C29_fails_keys (env : Env) (clock : Clock) :
    ∃ t, tree env clock (plain [] [] [] true) (sample [(ch! "message", ch! "v")]) = .ok t
      ∧ ((t.valuesAt []).filter fun f => f.1 = ch! "message").map (·.2) = [.str (ch! "hi"), .str (ch! "v")] := by
  have h : tree env clock (plain [] [] [] true) (sample [(ch! "message", ch! "v")])
      = tree env clock (plain [] [] [] false) (sample [(ch! "message", ch! "v")]) := rfl
  rw [h, sample_tree]
  exact ⟨_, rfl, rfl⟩

end Blackhole.Json
