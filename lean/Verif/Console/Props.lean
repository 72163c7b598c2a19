import Verif.Console.Model
import Verif.Registry.Props

/-! # Properties of the console sink: C36, C37, C38 -/

namespace Blackhole.Console

/-! ## C36: colours -/

/-- Not on a terminal: the message and a newline, nothing else. -/
theorem C36_not_a_terminal (s : Sink) (severity : Int) (m : Str) (h : s.filter severity ≠ .deny) :
    s.output false severity m = m ++ ['\n'] := by
  unfold Sink.output
  split
  · exact absurd ‹_› h
  · rfl

/-- On a terminal with the default colour: the same. -/
theorem C36_default_colour (s : Sink) (severity : Int) (m : Str) (h : s.filter severity ≠ .deny)
    (hc : s.mapping severity = ⟨0, 39⟩) : s.output true severity m = m ++ ['\n'] := by
  unfold Sink.output
  split
  · exact absurd ‹_› h
  · rw [hc]; rfl

/-- How the model prints numbers is how Lean does. -/
theorem showInt_eq (z : Int) : showInt z = (toString z).toList := by
  unfold showInt
  cases z with
  | ofNat n =>
    rw [if_neg (by simp)]
    show Nat.toDigits 10 n = (Int.repr (Int.ofNat n)).toList
    simp [Int.repr, Nat.repr]
  | negSucc n =>
    rw [if_pos (by omega)]
    show '-' :: Nat.toDigits 10 (n + 1) = (Int.repr (Int.negSucc n)).toList
    simp [Int.repr, Nat.repr]

/-- On a terminal with any other colour: the message between the colour's escape sequence and the reset sequence, and
a newline. -/
theorem C36_coloured (s : Sink) (severity : Int) (m : Str) (h : s.filter severity ≠ .deny)
    (hc : s.mapping severity ≠ ⟨0, 39⟩) :
    s.output true severity m
      = ch! "\x1b[" ++ (toString (s.mapping severity).code).toList ++ ch! "m" ++ m ++ ch! "\x1b[0m" ++ ['\n'] := by
  rw [← showInt_eq]
  have hcol : (s.mapping severity).colored = true := by
    unfold Color.colored
    simp only [Bool.not_eq_true', Bool.and_eq_false_imp, beq_iff_eq, beq_eq_false_iff_ne]
    intro h1 h2
    apply hc
    cases hm : s.mapping severity
    simp_all [Color.default]
  unfold Sink.output
  split
  · exact absurd ‹_› h
  · simp only [if_true, Color.write, hcol, Color.seq]
    have : showInt Color.reset.code = ['0'] := rfl
    rw [this]
    simp

/-- The sequences of the named colours. -/
theorem C36_sequences : Color.gray.seq = ch! "\x1b[2m" ∧ Color.blue.seq = ch! "\x1b[34m"
    ∧ Color.green.seq = ch! "\x1b[32m" ∧ Color.yellow.seq = ch! "\x1b[33m" ∧ Color.red.seq = ch! "\x1b[31m" :=
  ⟨rfl, rfl, rfl, rfl, rfl⟩

/-- None of these calls says something about severity `s`. -/
def Silent (calls : List Call) (s : Int) : Prop :=
  ∀ x ∈ calls, x = .stdout ∨ x = .stderr ∨ ∃ s' c, x = .colorize s' c ∧ s' ≠ s

/-- The colour of a severity after some builder calls: that of the last call that says something about it. -/
inductive ColourOf : List Call → Int → Color → Prop
  | severity {before after : List Call} {s : Int} {c : Color} : Silent after s →
      ColourOf (before ++ .colorize s c :: after) s c
  | function {before after : List Call} {s : Int} {fn : Int → Color} : Silent after s →
      ColourOf (before ++ .colorizeBy fn :: after) s (fn s)
  | none {calls : List Call} {s : Int} : Silent calls s → ColourOf calls s ⟨0, 39⟩

theorem C36_mapping (calls : List Call) (s : Int) :
    ColourOf calls s ((calls.foldl Builder.call Builder.init).build.mapping s) := by
  induction calls using snoc_induction with
  | nil => exact .none (by intro x hx; cases hx)
  | snoc calls x ih =>
    rw [List.foldl_append]
    simp only [List.foldl_cons, List.foldl_nil]
    have ext : ∀ {after : List Call}, Silent after s →
        (x = .stdout ∨ x = .stderr ∨ ∃ s' c, x = .colorize s' c ∧ s' ≠ s) → Silent (after ++ [x]) s := by
      intro after ha hx y hy
      rcases List.mem_append.1 hy with hy | hy
      · exact ha y hy
      · rw [List.mem_singleton.1 hy]; exact hx
    have keep : (x = .stdout ∨ x = .stderr ∨ ∃ s' c, x = .colorize s' c ∧ s' ≠ s) → ∀ col, ColourOf calls s col →
        ColourOf (calls ++ [x]) s col := by
      intro hx col hc
      cases hc with
      | severity h =>
        rename_i before after
        have := ColourOf.severity (before := before) (c := col) (ext h hx)
        simpa using this
      | function h =>
        rename_i before after fn
        have := ColourOf.function (before := before) (fn := fn) (ext h hx)
        simpa using this
      | none h => exact .none (ext h hx)
    cases x with
    | stdout => exact keep (Or.inl rfl) _ ih
    | stderr => exact keep (Or.inr (Or.inl rfl)) _ ih
    | colorize s' c =>
      by_cases h : s' = s
      · subst h
        have hm : ((calls.foldl Builder.call Builder.init).call (.colorize s' c)).build.mapping s' = c := by
          simp [Builder.call, Builder.build]
        rw [hm]
        exact .severity (before := calls) (after := []) (by intro x hx; cases hx)
      · have hm : ((calls.foldl Builder.call Builder.init).call (.colorize s' c)).build.mapping s
            = (calls.foldl Builder.call Builder.init).build.mapping s := by
          simp [Builder.call, Builder.build, h]
        rw [hm]
        exact keep (Or.inr (Or.inr ⟨s', c, rfl, h⟩)) _ ih
    | colorizeBy fn =>
      exact .function (before := calls) (after := []) (by intro x hx; cases hx)

/-- The stream chosen by some builder calls: that of the last `stdout()` or `stderr()`, standard output if none. -/
inductive StreamOf : List Call → Stream → Prop
  | stdout {before after : List Call} : Call.stdout ∉ after → Call.stderr ∉ after →
      StreamOf (before ++ .stdout :: after) .stdout
  | stderr {before after : List Call} : Call.stdout ∉ after → Call.stderr ∉ after →
      StreamOf (before ++ .stderr :: after) .stderr
  | none {calls : List Call} : Call.stdout ∉ calls → Call.stderr ∉ calls → StreamOf calls .stdout

theorem C36_stream (calls : List Call) :
    StreamOf calls (calls.foldl Builder.call Builder.init).build.stream := by
  induction calls using snoc_induction with
  | nil => exact .none (by simp) (by simp)
  | snoc calls x ih =>
    rw [List.foldl_append]
    simp only [List.foldl_cons, List.foldl_nil]
    have keep : x ≠ .stdout → x ≠ .stderr → ∀ st, StreamOf calls st → StreamOf (calls ++ [x]) st := by
      intro h1 h2 st h
      have ext : ∀ {y : Call} {after : List Call}, x ≠ y → y ∉ after → y ∉ after ++ [x] := by
        intro y after hy ha hm
        rcases List.mem_append.1 hm with hm | hm
        · exact ha hm
        · exact hy (List.mem_singleton.1 hm).symm
      cases h with
      | stdout a b =>
        rename_i before after
        simpa using StreamOf.stdout (before := before) (ext h1 a) (ext h2 b)
      | stderr a b =>
        rename_i before after
        simpa using StreamOf.stderr (before := before) (ext h1 a) (ext h2 b)
      | none a b => exact .none (ext h1 a) (ext h2 b)
    cases x with
    | stdout => exact .stdout (before := calls) (after := []) (by simp) (by simp)
    | stderr => exact .stderr (before := calls) (after := []) (by simp) (by simp)
    | colorize s c => exact keep (by simp) (by simp) _ ih
    | colorizeBy f => exact keep (by simp) (by simp) _ ih

example : ((([.colorize 1 Color.red, .colorize 2 Color.blue, .colorize 1 Color.green, .stderr] : List Call).foldl
    Builder.call Builder.init).build.output true 1 (ch! "hi")) = ch! "\x1b[32mhi\x1b[0m\n" := rfl

/-! ## C37: filters -/

/-- A denied record leaves the stream untouched. -/
theorem C37_denied (s : Sink) (tty : Bool) (severity : Int) (m : Str) (h : s.filter severity = .deny) :
    s.output tty severity m = [] := by
  unfold Sink.output
  rw [h]

/-- Neutral and accept both print: every message, with at least its newline. -/
theorem C37_printed (s : Sink) (tty : Bool) (severity : Int) (m : Str)
    (h : s.filter severity = .neutral ∨ s.filter severity = .accept) :
    ∃ before after, s.output tty severity m = before ++ m ++ after ++ ['\n'] := by
  have hd : s.filter severity ≠ .deny := by rcases h with h | h <;> rw [h] <;> simp
  cases tty with
  | false => exact ⟨[], [], by rw [C36_not_a_terminal s severity m hd]; simp⟩
  | true =>
    by_cases hc : s.mapping severity = ⟨0, 39⟩
    · exact ⟨[], [], by rw [C36_default_colour s severity m hd hc]; simp⟩
    · exact ⟨_, _, C36_coloured s severity m hd hc⟩

/-- The severity filter denies exactly the severities below its threshold, and never says accept. -/
theorem C37_severity_filter (threshold severity : Int) :
    (severityFilter threshold severity = .deny ↔ severity < threshold)
    ∧ (severityFilter threshold severity = .neutral ↔ threshold ≤ severity) := by
  unfold severityFilter
  split <;> simp <;> omega

/-- A console sink whose configuration has no filter prints everything. -/
theorem C37_default_prints (calls : List Call) (severity : Int) :
    (calls.foldl Builder.call Builder.init).build.filter severity = .neutral := rfl

/-- A console sink made from a configuration has the filter that the factory registered last for its type makes; with
no filter entry, one that lets everything pass. -/
theorem C37_factory {S M H : Type} (adds : List (Registry.Add S Filter M H)) (n : Config.Node) (fn : Config.Node)
    (t : Str) (f : Registry.Factory Filter) (filter : Filter) (hk : n.key (ch! "filter") = some fn)
    (ht : Registry.TypeIs fn t) (hf : Registry.LastAdded Registry.selFilter adds t f) (hok : f fn = .ok filter) :
    ∃ s, fromConfig (Registry.registry adds) n = .ok s ∧ s.filter = filter ∧ s.stream = .stdout := by
  have h1 : ((n.key (ch! "filter")).key (ch! "type")).toString = .ok (some t) := by
    rw [hk]
    exact (Registry.typeIs_iff fn t).2 ht
  unfold fromConfig
  rw [h1]
  simp only [(Registry.filter_iff adds t f).2 hf, hk, hok]
  exact ⟨_, rfl, rfl, rfl⟩

theorem C37_factory_no_filter {S M H : Type} (r : Registry.Registry S Filter M H) (n : Config.Node)
    (hk : n.key (ch! "filter") = none) :
    ∃ s, fromConfig r n = .ok s ∧ ∀ severity, s.filter severity = .neutral := by
  unfold fromConfig
  rw [hk]
  exact ⟨_, rfl, fun _ => rfl⟩

/-- The severity filter's own configuration: a threshold is required and used. -/
theorem C37_threshold (doc : Config.Json) (z : Int) (hz : -2 ^ 63 ≤ z ∧ z < 2 ^ 63)
    (h : Config.HasAt doc [.key (ch! "threshold")] (.int z)) :
    severityFromConfig (Config.Node.root doc) = .ok (severityFilter z) := by
  have hp : Config.Plain [.key (ch! "threshold")] := by intro k hk; simp at hk; subst hk; decide
  have := (Config.C33_conversions_partial doc _ hp _ h).2.1
  simp only [hz, and_self, if_true] at this
  unfold severityFromConfig
  have e : Config.lookup doc [.key (ch! "threshold")] = (Config.Node.root doc).key (ch! "threshold") := rfl
  rw [← e, this]

/-- Without a threshold, or with one that is not an integer of 64 bits, there is no filter. -/
theorem C37_no_threshold (doc : Config.Json)
    (h : ∀ z, -2 ^ 63 ≤ z ∧ z < 2 ^ 63 → ¬Config.HasAt doc [.key (ch! "threshold")] (.int z)) :
    ∃ e, severityFromConfig (Config.Node.root doc) = .error e
      ∧ ((∀ v, ¬Config.HasAt doc [.key (ch! "threshold")] v) → e = .thresholdRequired)
      ∧ ∀ v, Config.HasAt doc [.key (ch! "threshold")] v →
        e = .mismatch (Config.wrongType [.key (ch! "threshold")] v (ch! "int64")) := by
  have hp : Config.Plain [.key (ch! "threshold")] := by intro k hk; simp at hk; subst hk; decide
  have e : Config.lookup doc [.key (ch! "threshold")] = (Config.Node.root doc).key (ch! "threshold") := rfl
  unfold severityFromConfig
  rw [← e]
  by_cases hv : ∃ v, Config.HasAt doc [.key (ch! "threshold")] v
  · obtain ⟨v, hv⟩ := hv
    have := (Config.C33_conversions_partial doc _ hp _ hv).2.1
    have hw : (Config.lookup doc [.key (ch! "threshold")]).toSint64
        = .error (Config.wrongType [.key (ch! "threshold")] v (ch! "int64")) := by
      rw [this]
      cases v with
      | int z => exact if_neg fun hz => h z hz hv
      | _ => rfl
    rw [hw]
    refine ⟨_, rfl, fun hn => absurd hv (hn v), fun w hw => ?_⟩
    rw [Config.C33_at_most_one doc _ hp v w hv hw]
  · have := (Config.C33_missing_partial doc _ hp fun v hn => hv ⟨v, hn⟩).2.1
    rw [this]
    exact ⟨_, rfl, fun _ => rfl, fun v hn => absurd ⟨v, hn⟩ hv⟩

/-- A threshold that is a text. -/
example : ∀ z : Int, -2 ^ 63 ≤ z ∧ z < 2 ^ 63 →
    ¬Config.HasAt (.obj [(ch! "threshold", .str (ch! "2"))]) [.key (ch! "threshold")] (.int z) := by
  intro z _ h
  have hp : Config.Plain [.key (ch! "threshold")] := by intro k hk; simp at hk; subst hk; decide
  have := Config.C33_at_most_one _ _ hp _ _ h (.key (before := []) (by simp) (.here (.str (ch! "2"))))
  cases this

example : severityFilter 2 1 = .deny ∧ severityFilter 2 2 = .neutral ∧ severityFilter (-1) (-5) = .deny := by decide

/-! ## C38: lines from concurrent threads -/

/-- What the emits of a list print to a stream, whole lines one after the other. -/
def lines (st : Stream) (jobs : List Job) : Str := (jobs.filter (·.sink.stream = st)).flatMap Job.line

/-- The part of a stream that the thread holding the mutex has written of its unfinished line. -/
def Partial (s : State) (st : Stream) (p : Str) : Prop :=
  match s.mutex with
  | none => p = []
  | some t => ∃ j js rest, s.threads t = { todo := j :: js, writing := some rest }
      ∧ (if j.sink.stream = st then p ++ rest = j.line else p = [])

structure Inv (programs : Nat → List Job) (s : State) : Prop where
  content : ∀ st, ∃ p, s.out st = lines st (s.done.map (·.2)) ++ p ∧ Partial s st p
  free : ∀ t, s.mutex ≠ some t → (s.threads t).writing = none
  held : ∀ t, s.mutex = some t → ∃ j js rest, s.threads t = { todo := j :: js, writing := some rest } ∧ j.denied = false
  order : ∀ t, ((s.done.filter (·.1 = t)).map (·.2)) ++ ((s.threads t).todo.filter fun j => !j.denied)
    = (programs t).filter fun j => !j.denied

theorem Inv.init (programs : Nat → List Job) : Inv programs (State.init programs) :=
  ⟨fun st => ⟨[], rfl, rfl⟩, fun _ _ => rfl, fun t h => by simp [State.init] at h, fun t => by simp [State.init]⟩

theorem upd_same {α β : Type} [DecidableEq α] (f : α → β) (a : α) (b : β) : upd f a b a = b := by simp [upd]
theorem upd_other {α β : Type} [DecidableEq α] (f : α → β) {a x : α} (b : β) (h : x ≠ a) : upd f a b x = f x := by
  simp [upd, h]

theorem lines_append (st : Stream) (a b : List Job) : lines st (a ++ b) = lines st a ++ lines st b := by
  simp [lines]

theorem Inv.step {programs : Nat → List Job} {s : State} (h : Inv programs s) (t : Nat) : Inv programs (s.step t) := by
  unfold State.step
  simp only
  cases htd : (s.threads t).todo with
  | nil => exact h
  | cons j js =>
    simp only
    cases hw : (s.threads t).writing with
    | none =>
      simp only
      have hth : s.threads t = { todo := j :: js, writing := none } := by
        rw [← htd, ← hw]
      have hnt : s.mutex ≠ some t := by
        intro hm
        obtain ⟨_, _, _, e, _⟩ := h.held t hm
        rw [e] at hw; cases hw
      by_cases hd : j.denied = true
      · simp only [hd, if_true]
        refine ⟨?_, ?_, ?_, ?_⟩
        · intro st
          obtain ⟨p, hp, hpart⟩ := h.content st
          refine ⟨p, hp, ?_⟩
          unfold Partial at hpart ⊢
          simp only
          cases hm : s.mutex with
          | none => rw [hm] at hpart; exact hpart
          | some t' =>
            rw [hm] at hpart hnt
            have : t' ≠ t := fun e => hnt (by rw [e])
            simp only [upd_other _ _ this]
            exact hpart
        · intro t' ht'
          by_cases e : t' = t
          · subst e; simp [upd_same]
          · simp only [upd_other _ _ e]; exact h.free t' ht'
        · intro t' ht'
          have e : t' ≠ t := fun e => hnt (by rw [← e]; exact ht')
          simp only [upd_other _ _ e]
          exact h.held t' ht'
        · intro t'
          by_cases e : t' = t
          · subst e
            have := h.order t'
            rw [htd] at this
            simp only [upd_same]
            simpa [hd] using this
          · simp only [upd_other _ _ e]; exact h.order t'
      · have hd : j.denied = false := by simpa using hd
        simp only [hd, Bool.false_eq_true, if_false]
        cases hm : s.mutex with
        | some t' => exact h
        | none =>
          refine ⟨?_, ?_, ?_, ?_⟩
          · intro st
            obtain ⟨p, hp, hpart⟩ := h.content st
            unfold Partial at hpart
            rw [hm] at hpart
            simp only at hpart
            subst hpart
            refine ⟨[], hp, ?_⟩
            unfold Partial
            simp only [upd_same]
            refine ⟨j, js, j.line, rfl, ?_⟩
            split <;> simp
          · intro t' ht'
            have e : t' ≠ t := fun e => ht' (by rw [e])
            simp only [upd_other _ _ e]
            exact h.free t' (by rw [hm]; simp)
          · intro t' ht'
            have e : t = t' := by simpa using ht'
            subst e
            simp only [upd_same]
            exact ⟨j, js, j.line, rfl, hd⟩
          · intro t'
            by_cases e : t' = t
            · subst e
              have := h.order t'
              rw [htd] at this
              simpa only [upd_same] using this
            · simp only [upd_other _ _ e]; exact h.order t'
    | some w =>
      have hth : s.threads t = { todo := j :: js, writing := some w } := by rw [← htd, ← hw]
      have hm : s.mutex = some t := by
        apply Classical.byContradiction
        intro hn
        rw [h.free t hn] at hw
        cases hw
      have hd : j.denied = false := by
        obtain ⟨j', js', rest, e, hd⟩ := h.held t hm
        rw [hth] at e
        injection e with e1 e2
        injection e1 with e1 _
        rw [e1]; exact hd
      cases w with
      | cons c rest =>
        simp only
        refine ⟨?_, ?_, ?_, ?_⟩
        · intro st
          obtain ⟨p, hp, hpart⟩ := h.content st
          unfold Partial at hpart ⊢
          rw [hm] at hpart
          simp only at hpart ⊢
          obtain ⟨j', js', rest', e, hpart⟩ := hpart
          rw [hth] at e
          injection e with e1 e2
          injection e1 with e1 e3
          injection e2 with e2
          subst e1 e2 e3
          rw [hm]
          simp only [upd_same]
          by_cases hs : j.sink.stream = st
          · subst hs
            simp only [if_true] at hpart
            refine ⟨p ++ [c], by rw [upd_same, hp]; simp, j, js, rest, rfl, ?_⟩
            simp only [if_true]
            rw [← hpart]; simp
          · simp only [hs, if_false] at hpart
            refine ⟨p, by rw [upd_other _ _ (Ne.symm hs)]; exact hp, j, js, rest, rfl, ?_⟩
            simp only [hs, if_false]
            exact hpart
        · intro t' ht'
          have e : t' ≠ t := fun e => ht' (by rw [e]; exact hm)
          simp only [upd_other _ _ e]
          exact h.free t' ht'
        · intro t' ht'
          have e : t' = t := by
            have : some t = some t' := by rw [← hm]; exact ht'
            simpa using this.symm
          subst e
          simp only [upd_same]
          exact ⟨j, js, rest, rfl, hd⟩
        · intro t'
          by_cases e : t' = t
          · subst e
            have := h.order t'
            rw [htd] at this
            simpa only [upd_same] using this
          · simp only [upd_other _ _ e]; exact h.order t'
      | nil =>
        simp only
        refine ⟨?_, ?_, ?_, ?_⟩
        · intro st
          obtain ⟨p, hp, hpart⟩ := h.content st
          unfold Partial at hpart
          rw [hm] at hpart
          simp only at hpart
          obtain ⟨j', js', rest', e, hpart⟩ := hpart
          rw [hth] at e
          injection e with e1 e2
          injection e1 with e1 e3
          injection e2 with e2
          subst e1 e2 e3
          refine ⟨[], ?_, rfl⟩
          simp only [List.map_append, List.map_cons, List.map_nil, lines_append, List.append_nil]
          by_cases hs : j.sink.stream = st
          · simp only [hs, if_true, List.append_nil] at hpart
            rw [hp, hpart]
            simp [lines, hs]
          · simp only [hs, if_false] at hpart
            rw [hp, hpart]
            simp [lines, hs]
        · intro t' _
          by_cases e : t' = t
          · subst e; simp [upd_same]
          · simp only [upd_other _ _ e]
            exact h.free t' (by rw [hm]; intro e'; injection e' with e'; exact e e'.symm)
        · intro t' ht'
          cases ht'
        · intro t'
          by_cases e : t' = t
          · subst e
            have := h.order t'
            rw [htd] at this
            simp only [upd_same]
            simpa [hd] using this
          · simp only [upd_other _ _ e]
            have := h.order t'
            have e' : ¬ t = t' := fun h => e h.symm
            simpa [e'] using this

theorem Inv.run {programs : Nat → List Job} {s : State} (h : Inv programs s) (schedule : List Nat) :
    Inv programs (s.run schedule) := by
  induction schedule generalizing s with
  | nil => exact h
  | cons t ts ih => exact ih (h.step t)

/-- At any moment of any schedule each stream holds the whole lines of the emits that have finished, in the order they
finished, followed by the beginning of at most one more line; and each thread's emits that print have finished in its
own order. -/
theorem C38_whole_lines (programs : Nat → List Job) (schedule : List Nat) :
    let s := (State.init programs).run schedule
    (∀ st, ∃ p, s.out st = lines st (s.done.map (·.2)) ++ p ∧
      (p = [] ∨ ∃ t j js rest, s.threads t = { todo := j :: js, writing := some rest } ∧ p ++ rest = j.line))
    ∧ (∀ t, ∃ rest, (s.done.filter (·.1 = t)).map (·.2) ++ rest = (programs t).filter fun j => j.sink.filter j.severity != .deny) := by
  have h := (Inv.init programs).run schedule
  refine ⟨?_, fun t => ⟨_, h.order t⟩⟩
  intro st
  obtain ⟨p, hp, hpart⟩ := h.content st
  refine ⟨p, hp, ?_⟩
  unfold Partial at hpart
  split at hpart
  · exact Or.inl hpart
  · rename_i t _
    obtain ⟨j, js, rest, e, hif⟩ := hpart
    split at hif
    · exact Or.inr ⟨t, j, js, rest, e, hif⟩
    · exact Or.inl hif

/-- When all threads have finished, each stream is a concatenation of whole lines, one per printing emit, an
interleaving of the threads' own sequences. -/
theorem C38_complete (programs : Nat → List Job) (schedule : List Nat)
    (hdone : ∀ t, (((State.init programs).run schedule).threads t).todo = []) :
    let s := (State.init programs).run schedule
    (∀ st, s.out st = lines st (s.done.map (·.2)))
    ∧ (∀ t, (s.done.filter (·.1 = t)).map (·.2) = (programs t).filter fun j => j.sink.filter j.severity != .deny) := by
  have h := (Inv.init programs).run schedule
  refine ⟨?_, ?_⟩
  · intro st
    obtain ⟨p, hp, hpart⟩ := h.content st
    unfold Partial at hpart
    split at hpart
    · rw [hp, hpart]; simp
    · rename_i t _
      obtain ⟨j, js, rest, e, _⟩ := hpart
      have := hdone t
      rw [e] at this
      cases this
  · intro t
    have := h.order t
    rw [hdone t, List.filter_nil, List.append_nil] at this
    exact this

/-- Only the thread that holds the mutex is in the middle of a line. -/
theorem C38_exclusive (programs : Nat → List Job) (schedule : List Nat) (t t' : Nat)
    (h1 : (((State.init programs).run schedule).threads t).writing ≠ none)
    (h2 : (((State.init programs).run schedule).threads t').writing ≠ none) : t = t' := by
  have h := (Inv.init programs).run schedule
  have e : ∀ t, (((State.init programs).run schedule).threads t).writing ≠ none →
      ((State.init programs).run schedule).mutex = some t := by
    intro t ht
    apply Classical.byContradiction
    intro hn
    exact ht (h.free t hn)
  have a := e t h1
  rw [e t' h2] at a
  injection a with a
  exact a.symm

/-- Two threads print one line each on the same stream, with an attempt to interleave. -/
example :
    let sink : Sink := { stream := .stdout, filter := zen, mapping := fun _ => Color.default }
    let s := (State.init fun t => if t = 0 then [⟨sink, false, 0, ch! "ab"⟩] else if t = 1 then [⟨sink, false, 0, ch! "c"⟩]
      else []).run [0, 1, 0, 1, 0, 1, 0, 1, 0, 1, 1, 1, 1, 1]
    s.out .stdout = ch! "ab\nc\n" ∧ s.done.map (·.1) = [0, 1] := by decide

end Blackhole.Console
