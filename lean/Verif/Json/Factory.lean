import Verif.Json.Props

/-! # C55: building JSON formatters -/

namespace Blackhole.Json

open Rec StringFmt
open Tskv (lookup insert lookup_insert insert_sorted Plain)

/-! ## The builder -/

/-- The last of the calls for which there is an answer. -/
def last {α : Type} (answer : Call → Option α) (calls : List Call) : Option α := calls.reverse.findSome? answer

/-- The new name that a call gives to `name`. -/
def Call.renames (name : Str) : Call → Option Str
  | .rename n v => if n = name then some v else none
  | _ => none

/-- The pattern that a call gives to `name`. -/
def Call.formats (name : Str) : Call → Option Str
  | .format n v => if n = name then some v else none
  | _ => none

/-- The names that a call sends to `pointer`. -/
def Call.routes (pointer : Str) : Call → Option (List Str)
  | .routeNames p ns => if p = pointer then some ns else none
  | _ => none

/-- The pointer that a call gives to the other attributes. -/
def Call.defaultRoute : Call → Option Str
  | .route p => some p
  | _ => none

/-- The names that a call gives to severities. -/
def Call.severities : Call → Option (List Str)
  | .severity ns => some ns
  | _ => none

/-- The pattern that a call gives to the timestamp. -/
def Call.pattern : Call → Option Str
  | .timestamp p => some p
  | _ => none

theorem last_snoc {α : Type} (f : Call → Option α) (cs : List Call) (c : Call) :
    last f (cs ++ [c]) = (f c).or (last f cs) := by
  simp only [last, List.reverse_append, List.reverse_cons, List.reverse_nil, List.nil_append, List.singleton_append,
    List.findSome?_cons]
  cases f c <;> rfl

/-- **C55.** What a builder remembers of any sequence of calls: the last of each kind, for renaming and formats the last
for each name, and for routes the last list for each pointer; the switches are on if they were called at all. -/
theorem C55_builder (calls : List Call) :
    let d := Data.build calls
    (∀ n, lookup n d.mapping = last (Call.renames n) calls)
    ∧ (∀ n, lookup n d.formatting = last (Call.formats n) calls)
    ∧ (∀ p, lookup p d.specified = last (Call.routes p) calls)
    ∧ d.unspecified = (last Call.defaultRoute calls).getD []
    ∧ d.severity = (last Call.severities calls).getD []
    ∧ d.timestamp = last Call.pattern calls
    ∧ (d.unique = true ↔ Call.unique ∈ calls) ∧ (d.newline = true ↔ Call.newline ∈ calls)
    ∧ d.mapping.Pairwise (fun a b => a.1 < b.1) ∧ d.formatting.Pairwise (fun a b => a.1 < b.1)
    ∧ d.specified.Pairwise (fun a b => a.1 < b.1) := by
  induction calls using snoc_induction with
  | nil =>
    refine ⟨fun n => rfl, fun n => rfl, fun n => rfl, rfl, rfl, rfl, ?_, ?_, ?_, ?_, ?_⟩ <;> simp [Data.build, Data.init]
  | snoc cs c ih =>
    obtain ⟨h1, h2, h3, h4, h5, h6, h7, h8, s1, s2, s3⟩ := ih
    have e : Data.build (cs ++ [c]) = (Data.build cs).call c := by simp [Data.build]
    simp only [e, last_snoc]
    cases c with
    | rename n v =>
      refine ⟨fun m => ?_, fun m => ?_, fun m => ?_, ?_, ?_, ?_, ?_, ?_, insert_sorted _ _ _ s1, s2, s3⟩
      · simp only [Data.call, lookup_insert _ _ _ _ s1, Call.renames, h1]
        split <;> rfl
      · simpa [Data.call, Call.formats] using h2 m
      · simpa [Data.call, Call.routes] using h3 m
      all_goals simpa [Data.call, Call.defaultRoute, Call.severities, Call.pattern]
    | format n v =>
      refine ⟨fun m => ?_, fun m => ?_, fun m => ?_, ?_, ?_, ?_, ?_, ?_, s1, insert_sorted _ _ _ s2, s3⟩
      · simpa [Data.call, Call.renames] using h1 m
      · simp only [Data.call, lookup_insert _ _ _ _ s2, Call.formats, h2]
        split <;> rfl
      · simpa [Data.call, Call.routes] using h3 m
      all_goals simpa [Data.call, Call.defaultRoute, Call.severities, Call.pattern]
    | routeNames n v =>
      refine ⟨fun m => ?_, fun m => ?_, fun m => ?_, ?_, ?_, ?_, ?_, ?_, s1, s2, insert_sorted _ _ _ s3⟩
      · simpa [Data.call, Call.renames] using h1 m
      · simpa [Data.call, Call.formats] using h2 m
      · simp only [Data.call, lookup_insert _ _ _ _ s3, Call.routes, h3]
        split <;> rfl
      all_goals simpa [Data.call, Call.defaultRoute, Call.severities, Call.pattern]
    | route p =>
      refine ⟨fun m => ?_, fun m => ?_, fun m => ?_, ?_, ?_, ?_, ?_, ?_, s1, s2, s3⟩
      · simpa [Data.call, Call.renames] using h1 m
      · simpa [Data.call, Call.formats] using h2 m
      · simpa [Data.call, Call.routes] using h3 m
      all_goals simpa [Data.call, Call.defaultRoute, Call.severities, Call.pattern]
    | unique =>
      refine ⟨fun m => ?_, fun m => ?_, fun m => ?_, ?_, ?_, ?_, ?_, ?_, s1, s2, s3⟩
      · simpa [Data.call, Call.renames] using h1 m
      · simpa [Data.call, Call.formats] using h2 m
      · simpa [Data.call, Call.routes] using h3 m
      all_goals simpa [Data.call, Call.defaultRoute, Call.severities, Call.pattern]
    | newline =>
      refine ⟨fun m => ?_, fun m => ?_, fun m => ?_, ?_, ?_, ?_, ?_, ?_, s1, s2, s3⟩
      · simpa [Data.call, Call.renames] using h1 m
      · simpa [Data.call, Call.formats] using h2 m
      · simpa [Data.call, Call.routes] using h3 m
      all_goals simpa [Data.call, Call.defaultRoute, Call.severities, Call.pattern]
    | severity ns =>
      refine ⟨fun m => ?_, fun m => ?_, fun m => ?_, ?_, ?_, ?_, ?_, ?_, s1, s2, s3⟩
      · simpa [Data.call, Call.renames] using h1 m
      · simpa [Data.call, Call.formats] using h2 m
      · simpa [Data.call, Call.routes] using h3 m
      all_goals simpa [Data.call, Call.defaultRoute, Call.severities, Call.pattern]
    | timestamp p =>
      refine ⟨fun m => ?_, fun m => ?_, fun m => ?_, ?_, ?_, ?_, ?_, ?_, s1, s2, s3⟩
      · simpa [Data.call, Call.renames] using h1 m
      · simpa [Data.call, Call.formats] using h2 m
      · simpa [Data.call, Call.routes] using h3 m
      all_goals simpa [Data.call, Call.defaultRoute, Call.severities, Call.pattern]

theorem lookup_mem {α : Type} {k : Str} {v : α} {m : List (Str × α)} (h : lookup k m = some v) : (k, v) ∈ m := by
  induction m with
  | nil => cases h
  | cons kv m ih =>
    obtain ⟨a, b⟩ := kv
    by_cases e : a = k
    · subst e
      simp [lookup] at h
      simp [h]
    · simp [lookup, e] at h
      exact List.mem_cons_of_mem _ (ih h)

theorem lookup_of_mem {α : Type} {k : Str} {v : α} {m : List (Str × α)} (hs : m.Pairwise fun a b => a.1 < b.1)
    (h : (k, v) ∈ m) : lookup k m = some v := by
  induction m with
  | nil => cases h
  | cons kv m ih =>
    obtain ⟨a, b⟩ := kv
    have hs' := List.pairwise_cons.1 hs
    rcases List.mem_cons.mp h with e | h
    · cases e
      simp [lookup]
    · have := hs'.1 _ h
      have hne : a ≠ k := by
        rintro rfl
        exact List.lt_irrefl _ this
      simp [lookup, hne, ih hs'.2 h]

theorem find?_sorted {m : List (Str × List Str)} {name : Str} (hs : m.Pairwise fun a b => a.1 < b.1) {r : Str × List Str}
    (h : m.find? (fun r => decide (name ∈ r.2)) = some r) : ∀ x ∈ m, name ∈ x.2 → r.1 ≤ x.1 := by
  induction m with
  | nil => cases h
  | cons y m ih =>
    have hs' := List.pairwise_cons.1 hs
    rw [List.find?_cons] at h
    intro x hx hn
    by_cases hy : name ∈ y.2
    · simp [hy] at h
      subst h
      rcases List.mem_cons.mp hx with rfl | hx
      · exact List.le_refl _
      · exact List.le_of_lt (hs'.1 x hx)
    · simp [hy] at h
      rcases List.mem_cons.mp hx with rfl | hx
      · exact absurd hn hy
      · exact ih hs'.2 (by simpa using h) x hx hn

/-- **C55.** After any sequence of calls a field is routed to the least pointer, as a text, whose last list of names
contains it, and to the last default pointer if there is none. -/
theorem C55_routing (calls : List Call) (name : Str) :
    (∃ p ns, last (Call.routes p) calls = some ns ∧ name ∈ ns ∧ routeText (Data.build calls) name = p
      ∧ ∀ q ms, last (Call.routes q) calls = some ms → name ∈ ms → p ≤ q)
    ∨ ((∀ p ns, last (Call.routes p) calls = some ns → name ∉ ns)
      ∧ routeText (Data.build calls) name = (last Call.defaultRoute calls).getD []) := by
  obtain ⟨_, _, h3, h4, _, _, _, _, _, _, s3⟩ := C55_builder calls
  unfold routeText
  cases hf : (Data.build calls).specified.find? fun r => decide (name ∈ r.2) with
  | some r =>
    refine .inl ⟨r.1, r.2, ?_, ?_, rfl, ?_⟩
    · rw [← h3]
      exact lookup_of_mem s3 (List.mem_of_find?_eq_some hf)
    · simpa using List.find?_some hf
    · intro q ms hq hn
      rw [← h3] at hq
      exact find?_sorted s3 hf (q, ms) (lookup_mem hq) hn
  | none =>
    refine .inr ⟨?_, h4⟩
    intro p ns hp hn
    rw [← h3] at hp
    have := List.find?_eq_none.mp hf (p, ns) (lookup_mem hp)
    simp [hn] at this

example : routeText (Data.build [.routeNames (ch! "/b") [ch! "x"], .routeNames (ch! "/a") [ch! "y"], .route (ch! "/c"),
    .routeNames (ch! "/a") [ch! "x"]]) (ch! "x") = ch! "/a" := by decide

/-! ## The factory -/

open Config (Node)

/-- A switch of the configuration: not there, or a boolean. -/
def Switch (ms : List (Str × Config.Json)) (key : Str) (c : Call) (calls : List Call) : Prop :=
  (Config.member key ms = none ∧ calls = [])
  ∨ ∃ b, Config.member key ms = some (.bool b) ∧ calls = if b then [c] else []

/-- A member of `routing`: a list of names, or a text, which makes the pointer the default whatever it says. -/
inductive RouteAt : Str × Config.Json → Call → Prop
  | names {p : Str} {ns : List Str} : Plain p → (∀ n ∈ ns, Plain n) →
      RouteAt (p, .arr (ns.map .str)) (.routeNames p ns)
  | default {p s : Str} : Plain p → RouteAt (p, .str s) (.route p)

/-- A member of `mutate`. -/
inductive MutateAt : Str × Config.Json → Call → Prop
  | timestamp {s : Str} : Plain s → MutateAt (ch! "timestamp", .str s) (.timestamp s)
  | severity {ns : List Str} : (∀ n ∈ ns, Plain n) → MutateAt (ch! "severity", .arr (ns.map .str)) (.severity ns)

/-- A section of the configuration: not there, or an object whose members stand for calls. -/
def Section (ms : List (Str × Config.Json)) (key : Str) (R : Str × Config.Json → Call → Prop) (calls : List Call) : Prop :=
  (Config.member key ms = none ∧ calls = []) ∨ ∃ os, Config.member key ms = some (.obj os) ∧ Both R os calls

/-- A pair of texts. -/
inductive PairAt (make : Str → Str → Call) : Str × Config.Json → Call → Prop
  | mk {k v : Str} : Plain k → Plain v → PairAt make (k, .str v) (make k v)

theorem switch_ok {ms : List (Str × Config.Json)} {cursor key : Str} {c : Call} {calls : List Call} (hk : Plain key)
    (h : Switch ms key c calls) :
    switch (({ value := .obj ms, cursor := cursor } : Node).key key) c = .ok calls := by
  rcases h with ⟨h, rfl⟩ | ⟨b, h, rfl⟩
  · simp only [switch, Node.key, Config.cstr_plain hk, h, Config.Opt.toBool, Config.Opt.to]
  · simp only [switch, Node.key, Config.cstr_plain hk, h, Config.Opt.toBool, Config.Opt.to, Node.toBool, Except.map]
    cases b <;> rfl

theorem section_ok {ms : List (Str × Config.Json)} {cursor key : Str} {R : Str × Config.Json → Call → Prop}
    {calls : List Call} (hk : Plain key) (f : Str → Node → Except ConfigError (List Call))
    (hf : ∀ m c cursor, R m c → f (Config.cstr m.1) { value := m.2, cursor := cursor } = .ok [c])
    (h : Section ms key R calls) :
    section_ (({ value := .obj ms, cursor := cursor } : Node).key key) f = .ok calls := by
  rcases h with ⟨h, rfl⟩ | ⟨os, h, hb⟩
  · simp only [section_, Node.key, Config.cstr_plain hk, h]
  · simp only [section_, Node.key, Config.cstr_plain hk, h, Node.eachMap]
    clear h
    induction hb with
    | nil => rfl
    | @cons m c os cs h1 _ ih =>
      obtain ⟨k, v⟩ := m
      simp only [List.map_cons, section_.go]
      rw [hf (k, v) c _ h1, ih]
      rfl

theorem severityNames_ok (cursor : Str) (i : Nat) (ns : List Str) (hp : ∀ n ∈ ns, Plain n) :
    severityNames (Config.children cursor i (ns.map .str)) = .ok ns := by
  induction ns generalizing i with
  | nil => rfl
  | cons n ns ih =>
    have ih := ih (i + 1) fun n h => hp n (List.mem_cons_of_mem _ h)
    simp only [List.map_cons, Config.children, severityNames, Node.toString, Config.cstr_plain (hp n List.mem_cons_self), ih]

theorem strings_ok (cursor : Str) (ns : List Str) (hp : ∀ n ∈ ns, Plain n) :
    strings { value := .arr (ns.map .str), cursor := cursor } = .ok ns := by
  simp only [strings, Node.each, severityNames_ok _ 0 ns hp]

theorem routed_ok (m : Str × Config.Json) (c : Call) (cursor : Str) (h : RouteAt m c) :
    routed (Config.cstr m.1) { value := m.2, cursor := cursor } = .ok [c] := by
  cases h with
  | names h1 h2 =>
    simp only [Config.cstr_plain h1, routed, Node.toString, strings_ok _ _ h2]
  | default h1 => simp only [Config.cstr_plain h1, routed, Node.toString]

theorem mutated_ok (m : Str × Config.Json) (c : Call) (cursor : Str) (h : MutateAt m c) :
    mutated (Config.cstr m.1) { value := m.2, cursor := cursor } = .ok [c] := by
  cases h with
  | @timestamp s h1 =>
    rw [show Config.cstr (ch! "timestamp", Config.Json.str s).1 = ch! "timestamp" from rfl, mutated, if_pos rfl]
    simp only [Node.toString, Config.cstr_plain h1]
  | @severity ns h1 =>
    rw [show Config.cstr (ch! "severity", Config.Json.arr (ns.map .str)).1 = ch! "severity" from rfl, mutated,
      if_neg (by decide), if_pos rfl]
    simp only [strings_ok _ _ h1]

theorem pair_ok (make : Str → Str → Call) (m : Str × Config.Json) (c : Call) (cursor : Str) (h : PairAt make m c) :
    pair make (Config.cstr m.1) { value := m.2, cursor := cursor } = .ok [c] := by
  cases h with
  | mk h1 h2 => simp only [Config.cstr_plain h1, pair, Node.toString, Config.cstr_plain h2]

/-- **C55.** A formatter made from a configuration is the one made by the calls written there: the switches, a new name for
each member of `mapping`, a format for each member of `formatting`, a route for each member of `routing`, and the members
`timestamp` and `severity` of `mutate`. -/
theorem C55_config (cursor : Str) (ms : List (Str × Config.Json)) (unique newline mapping formatting routing mutate : List Call)
    (h1 : Switch ms (ch! "unique") .unique unique) (h2 : Switch ms (ch! "newline") .newline newline)
    (h3 : Section ms (ch! "mapping") (PairAt .rename) mapping)
    (h4 : Section ms (ch! "formatting") (PairAt .format) formatting)
    (h5 : Section ms (ch! "routing") RouteAt routing) (h6 : Section ms (ch! "mutate") MutateAt mutate) :
    fromConfig { value := .obj ms, cursor := cursor }
      = .ok (Data.build (unique ++ (newline ++ (mapping ++ (formatting ++ (routing ++ mutate)))))) := by
  simp only [fromConfig, switch_ok (by simp [Plain]) h1, switch_ok (by simp [Plain]) h2,
    section_ok (by simp [Plain]) _ (pair_ok _) h3, section_ok (by simp [Plain]) _ (pair_ok _) h4,
    section_ok (by simp [Plain]) _ routed_ok h5, section_ok (by simp [Plain]) _ mutated_ok h6, parts, List.append_nil]

/-- The configuration of README.md:283-299. -/
example : fromConfig { value := .obj [(ch! "newline", .bool true), (ch! "unique", .bool false),
      (ch! "mapping", .obj [(ch! "message", .str (ch! "@message"))]),
      (ch! "routing", .obj [([], .arr [.str (ch! "message")]), (ch! "/fields", .str (ch! "*"))]),
      (ch! "mutate", .obj [(ch! "severity", .arr [.str (ch! "D")])])], cursor := [] }
    = .ok (Data.build [.newline, .rename (ch! "message") (ch! "@message"), .routeNames [] [ch! "message"],
        .route (ch! "/fields"), .severity [ch! "D"]]) :=
  C55_config [] _ [] [.newline] [_] [] [_, _] [_] (.inr ⟨false, rfl, rfl⟩) (.inr ⟨true, rfl, rfl⟩)
    (.inr ⟨_, rfl, .cons (.mk (by simp [Plain]) (by simp [Plain])) .nil⟩) (.inl ⟨rfl, rfl⟩)
    (.inr ⟨_, rfl, .cons (.names (ns := [ch! "message"]) (by simp [Plain]) (by simp [Plain]))
      (.cons (.default (by simp [Plain])) .nil)⟩)
    (.inr ⟨_, rfl, .cons (.severity (ns := [ch! "D"]) (by simp [Plain])) .nil⟩)

/-- **C55.** A member of `mutate` with any other name is an error, if everything before it is in order. -/
theorem C55_mutate (cursor : Str) (ms os : List (Str × Config.Json)) (key : Str) (v : Config.Json)
    (unique newline mapping formatting routing : List Call)
    (h1 : Switch ms (ch! "unique") .unique unique) (h2 : Switch ms (ch! "newline") .newline newline)
    (h3 : Section ms (ch! "mapping") (PairAt .rename) mapping)
    (h4 : Section ms (ch! "formatting") (PairAt .format) formatting)
    (h5 : Section ms (ch! "routing") RouteAt routing)
    (h6 : Config.member (ch! "mutate") ms = some (.obj ((key, v) :: os))) (hk : Plain key)
    (hne : key ≠ ch! "timestamp" ∧ key ≠ ch! "severity") :
    fromConfig { value := .obj ms, cursor := cursor } = .error (.unknown key) := by
  have hm : section_ (({ value := .obj ms, cursor := cursor } : Node).key (ch! "mutate")) mutated = .error (.unknown key) := by
    simp only [section_, Node.key, show Config.cstr (ch! "mutate") = ch! "mutate" from rfl, h6, Node.eachMap, List.map_cons,
      section_.go, Config.cstr_plain hk, mutated, if_neg hne.1, if_neg hne.2]
  simp only [fromConfig, switch_ok (by simp [Plain]) h1, switch_ok (by simp [Plain]) h2,
    section_ok (by simp [Plain]) _ (pair_ok _) h3, section_ok (by simp [Plain]) _ (pair_ok _) h4,
    section_ok (by simp [Plain]) _ routed_ok h5, hm, parts]

end Blackhole.Json
