import Verif.Registry.Model
import Verif.Config.Props

/-! # Properties of the registry and the blocking handler: C34, C35 -/

namespace Blackhole.Registry

open Config (Node Json HasAt Step lookup Plain)

variable {S F M H : Type}

/-! ## Vocabulary -/

/-- The last registration of a type among those selected by `sel`. -/
def LastAdded {α : Type} (sel : Add S F M H → Option (Str × α)) (adds : List (Add S F M H)) (t : Str) (f : α) : Prop :=
  ∃ before a after, adds = before ++ a :: after ∧ sel a = some (t, f) ∧ ∀ b ∈ after, ∀ g, sel b ≠ some (t, g)

def selSink : Add S F M H → Option (Str × Factory S)
  | .sink t f => some (t, f)
  | _ => none

def selFilter : Add S F M H → Option (Str × Factory F)
  | .filter t f => some (t, f)
  | _ => none

def selFormatter : Add S F M H → Option (Str × Factory M)
  | .formatter t f => some (t, f)
  | _ => none

def selHandler : Add S F M H → Option (Str × HandlerFactory H)
  | .handler t f => some (t, f)
  | _ => none

/-- The registry after a sequence of registrations. -/
def registry (adds : List (Add S F M H)) : Registry S F M H := adds.foldl Registry.add Registry.empty

/-- The type text of a node: the string member `type`, up to the first NUL if it has one. -/
def TypeIs (n : Node) (t : Str) : Prop :=
  ∃ s, HasAt n.value [.key (ch! "type")] (.str s) ∧ t = s.takeWhile (· ≠ '\x00')

/-- `n` has no member `type`. -/
def NoType (n : Node) : Prop := ∀ v, ¬ HasAt n.value [.key (ch! "type")] v

/-- What a handler entry describes, given the registrations: an entry without a type is a blocking handler. -/
inductive Makes (adds : List (Add S F M H)) : Node → Handler S M H → Prop
  | custom {n : Node} {t : Str} {f : Factory H} {h : H} :
      (TypeIs n t ∨ (NoType n ∧ t = ch! "blocking")) → LastAdded selHandler adds t (.custom f) → f n = .ok h →
      Makes adds n (.custom h)
  | blocking {n : Node} {t ft : Str} {fn : Node} {f : Factory M} {fmt : M} {nodes : List Node} {sinks : List S} :
      (TypeIs n t ∨ (NoType n ∧ t = ch! "blocking")) → LastAdded selHandler adds t .blocking →
      n.key (ch! "formatter") = some fn → TypeIs fn ft → LastAdded selFormatter adds ft f → f fn = .ok fmt →
      (n.key (ch! "sinks")).each = .ok nodes →
      Both (fun sn s => ∃ st g, TypeIs sn st ∧ LastAdded selSink adds st g ∧ g sn = .ok s) nodes sinks →
      Makes adds n (.blocking fmt sinks)

/-! ## Lemmas -/

theorem find_insert {α : Type} (k t : Str) (v : α) (m : List (Str × α)) :
    find t (insert k v m) = if k = t then some v else find t m := by
  induction m with
  | nil => simp [insert, find]
  | cons x m ih =>
    obtain ⟨a, b⟩ := x
    by_cases h1 : a = k
    · subst h1
      by_cases h2 : a = t <;> simp [insert, find, h2]
    · by_cases h2 : a = t
      · subst h2
        simp [insert, find, h1, Ne.symm h1]
      · simp [insert, find, h1, h2, ih]

theorem lastAdded_snoc_none {α : Type} {sel : Add S F M H → Option (Str × α)} {adds : List (Add S F M H)}
    {a : Add S F M H} {t : Str} {f : α} (h : ∀ g, sel a ≠ some (t, g)) :
    LastAdded sel (adds ++ [a]) t f ↔ LastAdded sel adds t f := by
  constructor
  · rintro ⟨before, b, after, e, hb, ha⟩
    rcases List.eq_nil_or_concat after with rfl | ⟨after', c, rfl⟩
    · have := List.append_inj' e rfl
      obtain ⟨_, h2⟩ := this
      injection h2 with h2
      subst h2
      exact absurd hb (h f)
    · rw [List.concat_eq_append] at e ha
      have e' : adds ++ [a] = (before ++ b :: after') ++ [c] := by simpa using e
      obtain ⟨rfl, _⟩ := List.append_inj' e' rfl
      exact ⟨before, b, after', rfl, hb, fun x hx => ha x (by simp [hx])⟩
  · rintro ⟨before, b, after, rfl, hb, ha⟩
    refine ⟨before, b, after ++ [a], by simp, hb, ?_⟩
    intro x hx
    rcases List.mem_append.1 hx with hx | hx
    · exact ha x hx
    · rw [List.mem_singleton.1 hx]; exact h

theorem lastAdded_snoc_some {α : Type} {sel : Add S F M H → Option (Str × α)} {adds : List (Add S F M H)}
    {a : Add S F M H} {t : Str} {f g : α} (h : sel a = some (t, g)) :
    LastAdded sel (adds ++ [a]) t f ↔ f = g := by
  constructor
  · rintro ⟨before, b, after, e, hb, ha⟩
    rcases List.eq_nil_or_concat after with rfl | ⟨after', c, rfl⟩
    · obtain ⟨_, h2⟩ := List.append_inj' e rfl
      injection h2 with h2
      subst h2
      rw [h] at hb
      injection hb with hb
      injection hb with _ hb
      exact hb.symm
    · rw [List.concat_eq_append] at e ha
      have e' : adds ++ [a] = (before ++ b :: after') ++ [c] := by simpa using e
      obtain ⟨_, h2⟩ := List.append_inj' e' rfl
      injection h2 with h2
      subst h2
      exact absurd h (ha a (by simp) g)
  · rintro rfl
    exact ⟨adds, a, [], rfl, h, by simp⟩

theorem find_iff {α : Type} (sel : Add S F M H → Option (Str × α)) (proj : Registry S F M H → List (Str × α))
    (h0 : proj Registry.empty = [])
    (hadd : ∀ r a, proj (r.add a) = match sel a with | some (t, f) => insert t f (proj r) | none => proj r)
    (adds : List (Add S F M H)) (t : Str) (f : α) :
    find t (proj (registry adds)) = some f ↔ LastAdded sel adds t f := by
  induction adds using snoc_induction with
  | nil =>
    simp only [registry, List.foldl_nil, h0, find]
    constructor
    · intro h; cases h
    · rintro ⟨before, a, after, e, _⟩
      simp at e
  | snoc adds a ih =>
    have e : registry (adds ++ [a]) = (registry adds).add a := by simp [registry]
    rw [e, hadd]
    cases hs : sel a with
    | none =>
      simp only
      rw [ih, lastAdded_snoc_none (by simp [hs])]
    | some x =>
      obtain ⟨k, g⟩ := x
      simp only [find_insert]
      by_cases hk : k = t
      · subst hk
        rw [lastAdded_snoc_some hs]
        simp only [if_true, Option.some.injEq]
        exact eq_comm
      · rw [lastAdded_snoc_none (by rw [hs]; intro g' h'; injection h' with h'; injection h' with h' _; exact hk h')]
        simp only [hk, if_false, ih]

theorem sink_iff (adds : List (Add S F M H)) (t : Str) (f : Factory S) :
    (registry adds).sink t = .ok f ↔ LastAdded selSink adds t f := by
  rw [← find_iff selSink Registry.sinks rfl (by intro r a; cases a <;> rfl)]
  unfold Registry.sink get
  split <;> simp_all

theorem filter_iff (adds : List (Add S F M H)) (t : Str) (f : Factory F) :
    (registry adds).filter t = .ok f ↔ LastAdded selFilter adds t f := by
  rw [← find_iff selFilter Registry.filters rfl (by intro r a; cases a <;> rfl)]
  unfold Registry.filter get
  split <;> simp_all

theorem formatter_iff (adds : List (Add S F M H)) (t : Str) (f : Factory M) :
    (registry adds).formatter t = .ok f ↔ LastAdded selFormatter adds t f := by
  rw [← find_iff selFormatter Registry.formatters rfl (by intro r a; cases a <;> rfl)]
  unfold Registry.formatter get
  split <;> simp_all

theorem handler_iff (adds : List (Add S F M H)) (t : Str) (f : HandlerFactory H) :
    (registry adds).handler t = .ok f ↔ LastAdded selHandler adds t f := by
  rw [← find_iff selHandler Registry.handlers rfl (by intro r a; cases a <;> rfl)]
  unfold Registry.handler get
  split <;> simp_all

theorem mapM_iff {α β : Type} (f : α → Except Error β) (xs : List α) (ys : List β) :
    mapM f xs = .ok ys ↔ Both (fun x y => f x = .ok y) xs ys := by
  induction xs generalizing ys with
  | nil =>
    constructor
    · intro h
      injection h with h
      subst h; exact .nil
    · intro h; cases h; rfl
  | cons x xs ih =>
    constructor
    · intro h
      unfold mapM at h
      split at h
      · cases h
      · rename_i y hy
        split at h
        · cases h
        · rename_i ys' hys
          injection h with h
          subst h
          exact .cons hy ((ih _).1 hys)
    · intro h
      cases h with
      | cons h1 h2 =>
        unfold mapM
        rw [h1]
        simp only [(ih _).2 h2]

theorem key_iff (n : Node) (t : Str) : (n.key (ch! "type")).toString = .ok (some t) ↔
    ∃ s, HasAt n.value [.key (ch! "type")] (.str s) ∧ t = Config.cstr s := by
  have h := Config.path_iff [.key (ch! "type")] (by intro k hk; simp at hk; subst hk; decide) n
  have e : Config.Opt.path (some n) [.key (ch! "type")] = n.key (ch! "type") := rfl
  rw [e] at h
  constructor
  · intro hk
    cases hn : n.key (ch! "type") with
    | none => rw [hn] at hk; cases hk
    | some m =>
      rw [hn] at hk
      have hm := ((h m).1 hn).1
      cases hv : m.value with
      | str s =>
        rw [hv] at hm
        refine ⟨s, hm, ?_⟩
        simp [Config.Opt.toString, Config.Opt.to, Node.toString, hv, Except.map] at hk
        exact hk.symm
      | _ => simp [Config.Opt.toString, Config.Opt.to, Node.toString, hv, Except.map] at hk
  · rintro ⟨s, hs, rfl⟩
    rw [(h ⟨.str s, n.cursor ++ Config.shown [.key (ch! "type")]⟩).2 ⟨hs, rfl⟩]
    rfl

theorem key_none_iff (n : Node) : (n.key (ch! "type")).toString = .ok none ↔ NoType n := by
  have h := Config.path_iff [.key (ch! "type")] (by intro k hk; simp at hk; subst hk; decide) n
  have e : Config.Opt.path (some n) [.key (ch! "type")] = n.key (ch! "type") := rfl
  rw [e] at h
  constructor
  · intro hk v hv
    rw [(h ⟨v, n.cursor ++ Config.shown [.key (ch! "type")]⟩).2 ⟨hv, rfl⟩] at hk
    simp only [Config.Opt.toString, Config.Opt.to] at hk
    cases hm : Node.toString ⟨v, n.cursor ++ Config.shown [.key (ch! "type")]⟩ <;> rw [hm] at hk <;> cases hk
  · intro hn
    cases hk : n.key (ch! "type") with
    | none => rfl
    | some m => exact absurd ((h m).1 hk).1 (hn _)

theorem typeIs_iff (n : Node) (t : Str) : (n.key (ch! "type")).toString = .ok (some t) ↔ TypeIs n t := key_iff n t

theorem values_children (c : Str) (i : Nat) (items : List Json) :
    (Config.children c i items).map Node.value = items := by
  induction items generalizing i with
  | nil => rfl
  | cons x xs ih => simp [Config.children, ih]

theorem makeSink_iff (adds : List (Add S F M H)) (n : Node) (s : S) : (registry adds).makeSink n = .ok s ↔
    ∃ st g, TypeIs n st ∧ LastAdded selSink adds st g ∧ g n = .ok s := by
  unfold Registry.makeSink
  constructor
  · intro h
    split at h
    · cases h
    · cases h
    · rename_i t ht
      split at h
      · cases h
      · rename_i f hf
        exact ⟨t, f, (typeIs_iff n t).1 ht, (sink_iff adds t f).1 hf, h⟩
  · rintro ⟨st, g, ht, hg, hok⟩
    rw [(typeIs_iff n st).2 ht]
    simp only [(sink_iff adds st g).2 hg, hok]

theorem makeBlocking_iff (adds : List (Add S F M H)) (n : Node) (h : Handler S M H) :
    (registry adds).makeBlocking n = .ok h ↔ ∃ fn ft f fmt nodes sinks, h = .blocking fmt sinks
      ∧ n.key (ch! "formatter") = some fn ∧ TypeIs fn ft ∧ LastAdded selFormatter adds ft f ∧ f fn = .ok fmt
      ∧ (n.key (ch! "sinks")).each = .ok nodes
      ∧ Both (fun sn s => ∃ st g, TypeIs sn st ∧ LastAdded selSink adds st g ∧ g sn = .ok s) nodes sinks := by
  have hb : ∀ nodes sinks, mapM (registry adds).makeSink nodes = .ok sinks ↔
      Both (fun sn s => ∃ st g, TypeIs sn st ∧ LastAdded selSink adds st g ∧ g sn = .ok s) nodes sinks := by
    intro nodes sinks
    rw [mapM_iff]
    exact ⟨Both.mono fun a b => (makeSink_iff adds a b).1, Both.mono fun a b => (makeSink_iff adds a b).2⟩
  unfold Registry.makeBlocking
  constructor
  · intro hh
    split at hh
    · cases hh
    · cases hh
    · rename_i t ht
      cases hk : n.key (ch! "formatter") with
      | none => rw [hk] at ht; cases ht
      | some fn =>
        rw [hk] at hh ht
        cases hf : (registry adds).formatter t with
        | error e => rw [hf] at hh; cases hh
        | ok f =>
          rw [hf] at hh
          simp only at hh
          split at hh
          · cases hh
          · rename_i fmt hfmt
            split at hh
            · cases hh
            · rename_i nodes hnodes
              split at hh
              · cases hh
              · rename_i sinks hsinks
                injection hh with hh
                exact ⟨fn, t, f, fmt, nodes, sinks, hh.symm, rfl, (typeIs_iff fn t).1 ht,
                  (formatter_iff adds t f).1 hf, hfmt, hnodes, (hb _ _).1 hsinks⟩
  · rintro ⟨fn, ft, f, fmt, nodes, sinks, rfl, hk, ht, hf, hfmt, hnodes, hs⟩
    have h1 : ((n.key (ch! "formatter")).key (ch! "type")).toString = .ok (some ft) := by
      rw [hk]
      exact (typeIs_iff fn ft).2 ht
    rw [h1]
    simp only [(formatter_iff adds ft f).2 hf, hk, hfmt, hnodes, (hb _ _).2 hs]

theorem makeHandler_iff (adds : List (Add S F M H)) (n : Node) (h : Handler S M H) :
    (registry adds).makeHandler n = .ok h ↔ Makes adds n h := by
  have key : ∀ (t : Str),
      (match (registry adds).handler t with
        | .error e => Except.error e
        | .ok .blocking => (registry adds).makeBlocking n
        | .ok (.custom f) =>
          match f n with
          | .error e => .error e
          | .ok h => .ok (.custom h)) = .ok h →
      (TypeIs n t ∨ (NoType n ∧ t = ch! "blocking")) → Makes adds n h := by
    intro t hh ht
    split at hh
    · cases hh
    · rename_i hb
      obtain ⟨fn, ft, f, fmt, nodes, sinks, rfl, hk, h1, h2, h3, h4, h5⟩ := (makeBlocking_iff adds n h).1 hh
      exact .blocking ht ((handler_iff adds t _).1 hb) hk h1 h2 h3 h4 h5
    · rename_i f hf
      split at hh
      · cases hh
      · rename_i h' hok
        injection hh with hh
        subst hh
        exact .custom ht ((handler_iff adds t _).1 hf) hok
  unfold Registry.makeHandler
  constructor
  · intro hh
    split at hh
    · cases hh
    · rename_i t ht
      cases t with
      | none => exact key _ hh (Or.inr ⟨(key_none_iff n).1 ht, rfl⟩)
      | some t => exact key _ hh (Or.inl ((typeIs_iff n t).1 ht))
  · intro hm
    have fin : ∀ t, (TypeIs n t ∨ (NoType n ∧ t = ch! "blocking")) →
        ∃ o, (n.key (ch! "type")).toString = .ok o ∧ t = (match o with | some t => t | none => ch! "blocking") := by
      intro t ht
      rcases ht with ht | ⟨hno, rfl⟩
      · exact ⟨some t, (typeIs_iff n t).2 ht, rfl⟩
      · exact ⟨none, (key_none_iff n).2 hno, rfl⟩
    cases hm with
    | custom ht hf hok =>
      obtain ⟨o, ho, rfl⟩ := fin _ ht
      rw [ho]
      cases o <;> dsimp only at hf ⊢ <;> simp only [(handler_iff adds _ _).2 hf, hok]
    | blocking ht hh hfn hft hfm hfok hsn hss =>
      obtain ⟨o, ho, rfl⟩ := fin _ ht
      rw [ho]
      have hmb := (makeBlocking_iff adds n _).2 ⟨_, _, _, _, _, _, rfl, hfn, hft, hfm, hfok, hsn, hss⟩
      cases o <;> dsimp only at hh ⊢ <;> simp only [(handler_iff adds _ _).2 hh, hmb]

/-! ## C34: loggers built from a configuration -/

/-- For every sequence of registrations, every document and every name: the build succeeds with handlers `hs` exactly
if the document has an array under that name whose entries describe `hs` one by one and in order, by the factories
registered last for their types; or has nothing under that name, and then there are no handlers. -/
theorem C34_build (adds : List (Add S F M H)) (doc : Json) (name : Str) (hname : '\x00' ∉ name)
    (hs : List (Handler S M H)) :
    (registry adds).build doc name = .ok hs ↔
      ((∀ v, ¬ HasAt doc [.key name] v) ∧ hs = [])
      ∨ (∃ items nodes, HasAt doc [.key name] (.arr items) ∧ (lookup doc [.key name]).each = .ok nodes
          ∧ nodes.map Node.value = items ∧ Both (Makes adds) nodes hs) := by
  have hp : Plain [.key name] := by intro k hk; simp at hk; subst hk; exact hname
  have hl : (Node.root doc).key name = lookup doc [.key name] := rfl
  unfold Registry.build
  rw [hl]
  constructor
  · intro h
    split at h
    · cases h
    · rename_i nodes hnodes
      rw [mapM_iff] at h
      have h := h.mono fun a b => (makeHandler_iff adds a b).1
      cases hk : lookup doc [.key name] with
      | none =>
        rw [hk] at hnodes
        injection hnodes with hnodes
        subst hnodes
        cases h
        refine Or.inl ⟨?_, rfl⟩
        intro v hv
        have := (Config.C33_navigation_partial doc _ hp ⟨v, Config.shown [.key name]⟩).2 ⟨hv, rfl⟩
        rw [hk] at this
        cases this
      | some n =>
        have hn := (Config.C33_navigation_partial doc _ hp n).1 hk
        rw [hk] at hnodes
        cases hv : n.value with
        | arr items =>
          refine Or.inr ⟨items, nodes, by rw [← hv]; exact hn.1, hnodes, ?_, h⟩
          simp only [Config.Opt.each, Node.each, hv, Except.ok.injEq] at hnodes
          subst hnodes
          exact values_children n.cursor 0 items
        | _ => simp [Config.Opt.each, Node.each, hv] at hnodes
  · rintro (⟨h, rfl⟩ | ⟨items, nodes, _, hnodes, _, hm⟩)
    · have : lookup doc [.key name] = none := by
        cases hk : lookup doc [.key name] with
        | none => rfl
        | some n => exact absurd ((Config.C33_navigation_partial doc _ hp n).1 hk).1 (h _)
      rw [this]
      rfl
    · rw [hnodes]
      simp only
      rw [mapM_iff]
      exact hm.mono fun a b => (makeHandler_iff adds a b).2

/-- An entry whose type nobody registered makes the build fail. -/
theorem C34_unregistered (adds : List (Add S F M H)) (n : Node) (t : Str)
    (ht : TypeIs n t ∨ (NoType n ∧ t = ch! "blocking")) (hno : ∀ f, ¬ LastAdded selHandler adds t f) :
    (registry adds).makeHandler n = .error (.notRegistered .handler t) := by
  have hh : (registry adds).handler t = .error (.notRegistered .handler t) := by
    cases hh : (registry adds).handler t with
    | ok f => exact absurd ((handler_iff adds t f).1 hh) (hno f)
    | error e =>
      unfold Registry.handler get at hh
      split at hh
      · cases hh
      · exact hh.symm
  unfold Registry.makeHandler
  rcases ht with ht | ⟨hn, rfl⟩
  · rw [(typeIs_iff n t).2 ht]
    simp only [hh]
  · rw [(key_none_iff n).2 hn]
    simp only [hh]

/-- The first failing entry decides the error of the whole build; later entries are not made. -/
theorem C34_first_error (adds : List (Add S F M H)) (doc : Json) (name : Str) (before : List Node) (n : Node)
    (after : List Node) (hnodes : ((Node.root doc).key name).each = .ok (before ++ n :: after))
    (hok : ∀ m ∈ before, ∃ h, (registry adds).makeHandler m = .ok h) (e : Error)
    (he : (registry adds).makeHandler n = .error e) :
    (registry adds).build doc name = .error e := by
  unfold Registry.build
  rw [hnodes]
  simp only
  clear hnodes
  induction before with
  | nil => simp [mapM, he]
  | cons m before ih =>
    obtain ⟨h, hm⟩ := hok m (by simp)
    have := ih (fun x hx => hok x (by simp [hx]))
    simp [mapM, hm, this]

/-- Names and types are looked up last-registration-first, for all four kinds. -/
theorem C34_last_registration_wins (adds : List (Add S F M H)) (t : Str) :
    (∀ f, (registry adds).sink t = .ok f ↔ LastAdded selSink adds t f)
    ∧ (∀ f, (registry adds).filter t = .ok f ↔ LastAdded selFilter adds t f)
    ∧ (∀ f, (registry adds).formatter t = .ok f ↔ LastAdded selFormatter adds t f)
    ∧ (∀ f, (registry adds).handler t = .ok f ↔ LastAdded selHandler adds t f) :=
  ⟨sink_iff adds t, filter_iff adds t, formatter_iff adds t, handler_iff adds t⟩

/-- `{"root": [{"formatter": {"type": "f"}, "sinks": [{"type": "s"}, {"type": "s"}]}, {"type": "own"}]}` -/
example : (registry (S := Nat) (F := Nat) (M := Nat) (H := Nat)
      [.handler (ch! "blocking") .blocking, .formatter (ch! "f") (fun _ => .ok 1), .sink (ch! "s") (fun _ => .ok 2),
        .sink (ch! "s") (fun _ => .ok 3), .handler (ch! "own") (.custom fun _ => .ok 4)]).build
      (.obj [(ch! "root", .arr [.obj [(ch! "formatter", .obj [(ch! "type", .str (ch! "f"))]),
          (ch! "sinks", .arr [.obj [(ch! "type", .str (ch! "s"))], .obj [(ch! "type", .str (ch! "s"))]])],
        .obj [(ch! "type", .str (ch! "own"))]])]) (ch! "root")
    = .ok [.blocking 1 [3, 3], .custom 4] := rfl

/-! ## C35: the blocking handler -/

/-- The bytes given to sinks `i`, `i+1`, ... -/
def emissions {R : Type} (r : R) (bytes : Str) (i n : Nat) : List (Ev R) :=
  (List.range' i n).map fun k => .emitted k r bytes

theorem emissions_succ {R : Type} (r : R) (bytes : Str) (i n : Nat) :
    emissions r bytes i (n + 1) = .emitted i r bytes :: emissions r bytes (i + 1) n := by
  simp [emissions, List.range'_succ]

theorem emitAll_spec {R E : Type} (r : R) (bytes : Str) (sinks : List (Snk R E)) (i : Nat) (tr : List (Ev R)) :
    (emitAll r bytes i sinks tr = (tr ++ emissions r bytes i sinks.length, none)
      ∧ ∀ (k : Nat) s, sinks[k]? = some s → s (tr ++ emissions r bytes i k) r bytes = none)
    ∨ ∃ k s e, sinks[k]? = some s ∧ s (tr ++ emissions r bytes i k) r bytes = some e
      ∧ (∀ (j : Nat) s', j < k → sinks[j]? = some s' → s' (tr ++ emissions r bytes i j) r bytes = none)
      ∧ emitAll r bytes i sinks tr = (tr ++ emissions r bytes i (k + 1), some e) := by
  induction sinks generalizing i tr with
  | nil => exact Or.inl ⟨by simp [emitAll, emissions], by simp⟩
  | cons s rest ih =>
    have e0 : tr ++ emissions r bytes i 0 = tr := by simp [emissions]
    cases hs : s tr r bytes with
    | some e =>
      refine Or.inr ⟨0, s, e, rfl, by rw [e0]; exact hs, by simp, ?_⟩
      rw [emitAll, hs]
      simp [emissions]
    | none =>
      have shift : ∀ k, tr ++ emissions r bytes i (k + 1) = (tr ++ [.emitted i r bytes]) ++ emissions r bytes (i + 1) k := by
        intro k; rw [emissions_succ]; simp
      rcases ih (i + 1) (tr ++ [.emitted i r bytes]) with ⟨h1, h2⟩ | ⟨k, s', e, h1, h2, h3, h4⟩
      · refine Or.inl ⟨?_, ?_⟩
        · rw [emitAll, hs]
          simp only [h1, List.length_cons, shift]
        · intro k x hx
          cases k with
          | zero => simp at hx; subst hx; rw [e0]; exact hs
          | succ k => rw [shift]; exact h2 k x (by simpa using hx)
      · refine Or.inr ⟨k + 1, s', e, by simpa using h1, by rw [shift]; exact h2, ?_, ?_⟩
        · intro j x hj hx
          cases j with
          | zero => simp at hx; subst hx; rw [e0]; exact hs
          | succ j => rw [shift]; exact h3 j x (by omega) (by simpa using hx)
        · rw [emitAll, hs]
          simp only [h4, shift]

/-- If rendering succeeds and no sink throws, the record is rendered once and then every sink gets the same bytes, in
order. -/
theorem C35_all_sinks {R E : Type} (fmt : Fmt R E) (sinks : List (Snk R E)) (r : R) (tr : List (Ev R)) (bytes : Str)
    (hf : fmt tr r = .ok bytes)
    (hs : ∀ (k : Nat) s, sinks[k]? = some s → s (tr ++ .rendered r :: emissions r bytes 0 k) r bytes = none) :
    handle fmt sinks r tr = (tr ++ .rendered r :: emissions r bytes 0 sinks.length, none) := by
  unfold handle
  rw [hf]
  simp only
  rcases emitAll_spec r bytes sinks 0 (tr ++ [.rendered r]) with ⟨h1, _⟩ | ⟨k, s, e, h1, h2, _, _⟩
  · rw [h1]; simp
  · have := hs k s h1
    rw [List.append_assoc] at h2
    simp only [List.cons_append, List.nil_append] at h2
    rw [this] at h2
    cases h2

/-- If rendering throws, the exception propagates and no sink is called. -/
theorem C35_render_throws {R E : Type} (fmt : Fmt R E) (sinks : List (Snk R E)) (r : R) (tr : List (Ev R)) (e : E)
    (hf : fmt tr r = .error e) : handle fmt sinks r tr = (tr ++ [.rendered r], some e) := by
  unfold handle
  rw [hf]

/-- If sink `k` is the first that throws, sinks up to it have been given the bytes, those after it have not, and the
exception propagates. -/
theorem C35_sink_throws {R E : Type} (fmt : Fmt R E) (sinks : List (Snk R E)) (r : R) (tr : List (Ev R)) (bytes : Str)
    (hf : fmt tr r = .ok bytes) (k : Nat) (s : Snk R E) (e : E) (hk : sinks[k]? = some s)
    (he : s (tr ++ .rendered r :: emissions r bytes 0 k) r bytes = some e)
    (hbefore : ∀ (j : Nat) s', j < k → sinks[j]? = some s' →
      s' (tr ++ .rendered r :: emissions r bytes 0 j) r bytes = none) :
    handle fmt sinks r tr = (tr ++ .rendered r :: emissions r bytes 0 (k + 1), some e) := by
  unfold handle
  rw [hf]
  simp only
  have norm : ∀ l : List (Ev R), (tr ++ [.rendered r]) ++ l = tr ++ .rendered r :: l := by intro l; simp
  rcases emitAll_spec r bytes sinks 0 (tr ++ [.rendered r]) with ⟨_, h2⟩ | ⟨k', s', e', h1, h2, h3, h4⟩
  · have := h2 k s hk
    rw [norm, he] at this
    cases this
  · rcases Nat.lt_trichotomy k k' with h | h | h
    · have := h3 k s h hk
      rw [norm, he] at this
      cases this
    · subst h
      rw [hk] at h1
      injection h1 with h1
      subst h1
      rw [norm, he] at h2
      injection h2 with h2
      rw [h4, norm, h2]
    · have := hbefore k' s' h h1
      rw [norm, this] at h2
      cases h2

example : handle (R := Nat) (E := Nat) (fun _ _ => .ok (ch! "x")) [fun _ _ _ => none, fun _ _ _ => some 5, fun _ _ _ => none]
    9 [] = ([.rendered 9, .emitted 0 9 (ch! "x"), .emitted 1 9 (ch! "x")], some 5) := rfl

end Blackhole.Registry
