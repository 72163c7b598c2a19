import Verif.Syslog.Model
import Verif.Config.Props

/-! # Properties of the syslog sink: C39, C47 -/

namespace Blackhole.Syslog

open Config (Json Node Step HasAt lookup)

/-- Inside the table: the configured priority. A severity is a 32-bit integer. -/
theorem C39_configured (priorities : List Int) (severity : Nat) (p : Int) (hs : severity < 2 ^ 31)
    (h : priorities[severity]? = some p) : priority priorities severity = p := by
  have : toSize severity = severity := by unfold toSize; omega
  unfold priority
  rw [this, h]

/-- Outside of it, negative severities included: LOG_ERR. A vector has fewer than 2^61 elements. -/
theorem C39_default (priorities : List Int) (severity : Int) (hlen : priorities.length < 2 ^ 61)
    (hs : -2 ^ 31 ≤ severity ∧ severity < 2 ^ 31) (h : severity < 0 ∨ (priorities.length : Int) ≤ severity) :
    priority priorities severity = 3 := by
  have : priorities.length ≤ toSize severity := by unfold toSize; omega
  unfold priority
  rw [List.getElem?_eq_none this]
  rfl

/-- The text passed on: everything, for messages below 2 GiB without NUL. -/
theorem C39_text (m : Str) (hlen : m.length < 2 ^ 31) (hn : '\x00' ∉ m) : text m = .ok m := by
  have : toInt32 m.length = m.length := by unfold toInt32; omega
  unfold text
  simp only [this]
  rw [if_neg (by omega)]
  have : m.take (m.length : Int).toNat = m := by simp
  rw [this, Config.cstr_plain hn]

/-- With a NUL, what comes before it. -/
theorem C39_text_nul (a b : Str) (hlen : (a ++ '\x00' :: b).length < 2 ^ 31) (hn : '\x00' ∉ a) :
    text (a ++ '\x00' :: b) = .ok a := by
  have : toInt32 (a ++ '\x00' :: b).length = (a ++ '\x00' :: b).length := by unfold toInt32; omega
  unfold text
  simp only [this]
  rw [if_neg (by omega)]
  have : (a ++ '\x00' :: b).take (((a ++ '\x00' :: b).length : Nat) : Int).toNat = a ++ '\x00' :: b := by
    rw [Int.toNat_natCast, List.take_length]
  have hc : Config.cstr (a ++ '\x00' :: b) = a := by
    unfold Config.cstr
    rw [List.takeWhile_append_of_pos]
    · simp
    · intro c hc
      simp only [ne_eq, decide_eq_true_eq]
      intro e; exact hn (e ▸ hc)
  rw [this, hc]

theorem mapM_ints (c : Str) (zs : List Int) (hz : ∀ z ∈ zs, -2 ^ 31 ≤ z ∧ z < 2 ^ 31) (i : Nat) :
    (Config.children c i (zs.map .int)).mapM Node.toSint64 = .ok zs := by
  induction zs generalizing i with
  | nil => rfl
  | cons z zs ih =>
    have h1 := hz z (by simp)
    have : (-2 ^ 63 ≤ z ∧ z < 2 ^ 63) := by omega
    rw [List.map_cons, Config.children, List.mapM_cons, ih (fun z hz' => hz z (by simp [hz'])) (i + 1)]
    simp only [Node.toSint64, Json.isInt64, this, and_self, decide_true, if_true]
    rfl

/-- The factory: priorities that are integers of type `int` are used as given. -/
theorem C39_factory (doc : Json) (zs : List Int) (hz : ∀ z ∈ zs, -2 ^ 31 ≤ z ∧ z < 2 ^ 31)
    (h : HasAt doc [.key (ch! "priorities")] (.arr (zs.map .int))) : fromConfig (Node.root doc) = .ok zs := by
  have hp : Config.Plain [.key (ch! "priorities")] := by intro k hk; simp at hk; subst hk; decide
  have e := Config.some_of hp h
  have e' : (Node.root doc).key (ch! "priorities") = some ⟨_, _⟩ := e
  unfold fromConfig
  rw [e']
  simp only [Node.each]
  rw [mapM_ints _ zs hz]
  simp only [Except.map]
  congr 1
  rw [show zs = zs.map id from by simp]
  rw [List.map_map]
  apply List.map_congr_left
  intro z hz'
  have := hz z hz'
  simp only [Function.comp, id, toInt32]
  omega

/-- Without the entry no priority is configured, so that every record is logged as LOG_ERR. -/
theorem C39_factory_default (doc : Json) (h : ∀ v, ¬ HasAt doc [.key (ch! "priorities")] v) :
    fromConfig (Node.root doc) = .ok [] := by
  have hp : Config.Plain [.key (ch! "priorities")] := by intro k hk; simp at hk; subst hk; decide
  have e : (Node.root doc).key (ch! "priorities") = none := Config.none_of_not hp h
  unfold fromConfig
  rw [e]

/-- Priorities are used modulo 2^32: for all 64-bit integers in the document the sink has the `int` that differs from each
by a multiple of 2^32. -/
theorem C39_factory_wraps (doc : Json) (zs : List Int) (hz : ∀ z ∈ zs, -2 ^ 63 ≤ z ∧ z < 2 ^ 63)
    (h : HasAt doc [.key (ch! "priorities")] (.arr (zs.map .int))) :
    ∃ ps, fromConfig (Node.root doc) = .ok ps
      ∧ Both (fun z p => -2 ^ 31 ≤ p ∧ p < 2 ^ 31 ∧ ∃ k, z = p + k * 2 ^ 32) zs ps := by
  have hp : Config.Plain [.key (ch! "priorities")] := by intro k hk; simp at hk; subst hk; decide
  have e := Config.some_of hp h
  have e' : (Node.root doc).key (ch! "priorities") = some ⟨_, _⟩ := e
  have hm : ∀ (zs : List Int) c (i : Nat), (∀ z ∈ zs, -2 ^ 63 ≤ z ∧ z < 2 ^ 63) →
      (Config.children c i (zs.map .int)).mapM Node.toSint64 = .ok zs := by
    intro zs c
    induction zs with
    | nil => intro i _; rfl
    | cons z zs ih =>
      intro i hz
      have h1 := hz z (by simp)
      rw [List.map_cons, Config.children, List.mapM_cons, ih (i + 1) (fun z hz' => hz z (by simp [hz']))]
      simp only [Node.toSint64, Json.isInt64, h1, and_self, decide_true, if_true]
      rfl
  refine ⟨zs.map toInt32, ?_, ?_⟩
  · unfold fromConfig
    rw [e']
    simp only [Node.each]
    rw [hm zs _ _ hz]
    rfl
  · clear h e e' hz
    induction zs with
    | nil => exact .nil
    | cons z zs ih =>
      refine .cons ⟨?_, ?_, (z + 2 ^ 31) / 2 ^ 32, ?_⟩ ih <;> unfold toInt32 <;> omega

/-- **Disagreement.** A message of 2 GiB or more (below 4 GiB) without NUL is read past its end: its length, as an `int`,
is a negative precision. -/
theorem C39_fails_huge (m : Str) (h1 : 2 ^ 31 ≤ m.length) (h2 : m.length < 2 ^ 32) (hn : '\x00' ∉ m) :
    text m = .error .outOfBounds := by
  unfold text
  have : toInt32 m.length < 0 := by unfold toInt32; omega
  simp only [this, if_true]
  rw [if_neg hn]

/-- **Disagreement.** Of a message of 4 GiB or more only the length modulo 4 GiB is passed on, if that is less than
2 GiB. -/
theorem C39_fails_longer (a b : Str) (k : Nat) (h1 : a.length < 2 ^ 31) (h2 : b.length = k * 2 ^ 32) (hn : '\x00' ∉ a) :
    text (a ++ b) = .ok a := by
  unfold text
  have : toInt32 (a ++ b).length = a.length := by
    rw [List.length_append, h2]
    unfold toInt32
    omega
  simp only [this]
  rw [if_neg (by omega), Int.toNat_natCast, List.take_left, Config.cstr_plain hn]

/-- Such messages exist. -/
example : ∃ m : Str, 2 ^ 31 ≤ m.length ∧ m.length < 2 ^ 32 ∧ '\x00' ∉ m :=
  ⟨List.replicate (2 ^ 31) 'x', by rw [List.length_replicate]; decide, by rw [List.length_replicate]; decide,
    fun h => absurd (List.eq_of_mem_replicate h) (by decide)⟩

example : ∃ a b : Str, a.length < 2 ^ 31 ∧ b.length = 1 * 2 ^ 32 ∧ '\x00' ∉ a ∧ a = ch! "start" :=
  ⟨ch! "start", List.replicate (1 * 2 ^ 32) 'x', by decide, List.length_replicate, by decide, rfl⟩

example : fromConfig (Node.root (.obj [(ch! "priorities", .arr [.int 4294967302, .int 3, .int (-4294967290)])])) = .ok [6, 3, 6] := rfl

example : priority [7, 6, 4, 3] 2 = 4 ∧ priority [7, 6, 4, 3] 4 = 3 ∧ priority [7, 6, 4, 3] (-1) = 3 := by decide

/-! ## C47: the identity stays in force -/

theorem opened_snoc (ops : List Op) (op : Op) : opened (ops ++ [op]) = match op with
    | .construct _ => true
    | .destroy _ => false
    | _ => opened ops := by
  cases ops with
  | nil => cases op <;> rfl
  | cons a l =>
    show List.foldl _ _ _ = _
    rw [List.foldl_append]
    cases op <;> rfl

/-- The connection opened by a constructor is in force as long as no sink at all is destroyed. -/
theorem C47_in_force_partial (before after : List Op) (i : Nat) (h : ∀ j, Op.destroy j ∉ after) :
    opened (before ++ .construct i :: after) = true := by
  induction after using snoc_induction with
  | nil => rw [opened_snoc]
  | snoc l a ih =>
    have e : before ++ Op.construct i :: (l ++ [a]) = (before ++ Op.construct i :: l) ++ [a] := by simp
    rw [e, opened_snoc]
    have ih := ih (fun j hj => h j (by simp [hj]))
    cases a with
    | construct _ => rfl
    | destroy j => exact absurd (by simp) (h j)
    | move _ _ => exact ih
    | emit _ => exact ih

/-- A sink made by the factory is alive, but its connection has been closed before the factory returned. -/
theorem C47_fails_factory (before : List Op) (i j : Nat) (hij : j ≠ i) :
    j ∈ alive (before ++ factoryOps i j) ∧ opened (before ++ factoryOps i j) = false := by
  constructor
  · unfold alive factoryOps
    rw [List.foldl_append]
    simp [hij]
  · have : before ++ factoryOps i j = (before ++ [.construct i, .move i j]) ++ [.destroy i] := by simp [factoryOps]
    rw [this, opened_snoc]

/-- Destroying one of two sinks closes the connection of the other. -/
theorem C47_fails_two : let ops := [Op.construct 0, .construct 1, .destroy 0]
    alive ops = [1] ∧ opened ops = false := by decide

example : opened ([] ++ .construct 0 :: [.emit 0, .move 0 1, .emit 1]) = true := by decide

end Blackhole.Syslog
