import Verif.Builder.Chain

/-! # C83: chains of builder calls -/

namespace Blackhole.Builder.Chain

/-! ## Lemmas -/

section
variable {M : Type} (parses : Str → Bool)

/-- All the calls as if they were one statement. -/
def flat : Obj M → List (Call M) → Result M
  | o, [] => .unfinished o
  | o, c :: cs =>
    match call parses o c with
    | .value o => flat o cs
    | .reference o => flat o cs
    | .threw => .threw
    | .notCompiled => .notCompiled
    | .logger hs => match cs with | [] => .logger hs | _ :: _ => .notCompiled

theorem chain_flat (o : Obj M) (pl : Place) (cs rest : List (Call M)) :
    flat parses o (cs ++ rest)
      = match (chain parses o pl cs).1 with
        | .value o => flat parses o rest
        | .reference o => flat parses o rest
        | .threw => .threw
        | .notCompiled => .notCompiled
        | .logger hs => match rest with | [] => .logger hs | _ :: _ => .notCompiled := by
  induction cs generalizing o pl with
  | nil => rfl
  | cons c cs ih =>
    simp only [List.cons_append, flat, chain]
    cases hg : call parses o c with
    | value o => simp only [ih o .fresh]
    | reference o => simp only [ih o (if pl = .variable then .variable else .inside)]
    | threw => cases cs <;> rfl
    | notCompiled => cases cs <;> rfl
    | logger hs =>
      cases cs with
      | nil => cases rest <;> rfl
      | cons => rfl

/-- The calls that return a new object. -/
def Call.makes : Call M → Bool
  | .handlerBlocking | .handlerDev | .setString _ | .addConsole => true
  | .mapping _ | .build => false

/-- A statement after which its variable may be used. -/
def Safe (s : Bind × List (Call M)) : Prop := s.1 = .value ∨ ∃ c, s.2.getLast? = some c ∧ c.makes = true

theorem call_makes (o : Obj M) (c : Call M) (h : c.makes = true) :
    (∃ o', call parses o c = .value o') ∨ call parses o c = .notCompiled := by
  cases o <;> cases c <;> simp_all [call, Call.makes]

theorem call_keeps (o : Obj M) (c : Call M) (h : c.makes = false) (o' : Obj M) : call parses o c ≠ .value o' := by
  cases o <;> cases c <;> simp_all [call, Call.makes]
  split <;> simp

theorem chain_place (o : Obj M) (pl : Place) (cs : List (Call M)) (c : Call M) (hc : cs.getLast? = some c)
    (o' : Obj M) (ho : (chain parses o pl cs).1 = .reference o' ∨ (chain parses o pl cs).1 = .value o') :
    (c.makes = true → (chain parses o pl cs).2 = .fresh) ∧
    (c.makes = false → pl ≠ .variable → (chain parses o pl cs).2 = .inside) := by
  induction cs generalizing o pl with
  | nil => simp at hc
  | cons x cs ih =>
    simp only [chain] at ho ⊢
    cases cs with
    | nil =>
      simp only [List.getLast?_singleton, Option.some.injEq] at hc
      subst hc
      cases hg : call parses o x with
      | value o => 
        refine ⟨fun _ => rfl, fun h => ?_⟩
        exact absurd hg (call_keeps parses _ _ h _)
      | reference o =>
        refine ⟨fun h => ?_, fun _ h => ?_⟩
        · rcases call_makes parses _ _ h with ⟨o', h'⟩ | h'
          · rw [h'] at hg; cases hg
          · rw [h'] at hg; cases hg
        · simp [chain, h]
      | threw => simp [hg] at ho
      | notCompiled => simp [hg] at ho
      | logger => simp [hg] at ho
    | cons y cs =>
      rw [List.getLast?_cons_cons] at hc
      cases hg : call parses o x with
      | value o =>
        simp only [hg] at ho
        exact ⟨(ih o .fresh hc ho).1, fun h _ => (ih o .fresh hc ho).2 h (by simp)⟩
      | reference o =>
        simp only [hg] at ho
        refine ⟨(ih o _ hc ho).1, fun h hp => (ih o _ hc ho).2 h (by simp [hp])⟩
      | threw => simp [hg] at ho
      | notCompiled => simp [hg] at ho
      | logger => simp [hg] at ho

theorem exec_flat (o : Obj M) (pl : Place) (prog : List (Bind × List (Call M))) (hs : ∀ s ∈ prog, Safe s)
    (hne : ∀ s ∈ prog, s.2 ≠ []) : exec parses o pl true prog = flat parses o (prog.flatMap Prod.snd) := by
  induction prog generalizing o pl with
  | nil => rfl
  | cons s prog ih =>
    obtain ⟨b, cs⟩ := s
    have ih := fun o pl => ih o pl (fun s h => hs s (by simp [h])) (fun s h => hne s (by simp [h]))
    have hlive : ∀ o', ((chain parses o pl cs).1 = .reference o' ∨ (chain parses o pl cs).1 = .value o') →
        decide (b = .value ∨ (chain parses o pl cs).2 ≠ .inside) = true := by
      intro o' ho
      rcases hs (b, cs) (by simp) with h | ⟨c, h1, h2⟩
      · simp [show b = .value from h]
      · simp [(chain_place parses o pl cs c h1 o' ho).1 h2]
    rw [List.flatMap_cons, chain_flat parses o pl cs]
    simp only [exec, if_true]
    rcases hc : chain parses o pl cs with ⟨g, p⟩
    rw [hc] at hlive
    cases g with
    | value o' =>
      simp only
      rw [hlive o' (.inr rfl)]
      exact ih o' _
    | reference o' =>
      simp only
      rw [hlive o' (.inl rfl)]
      exact ih o' _
    | threw => simp
    | notCompiled => simp
    | logger hs' =>
      cases prog with
      | nil => rfl
      | cons s prog =>
        obtain ⟨b', cs'⟩ := s
        cases cs' with
        | nil => exact absurd rfl (hne (b', []) (by simp))
        | cons => rfl

/-- What is added to the data of a blocking handler's builder. -/
def extend (b : Blocking (StringData M) ConsoleData) (items : List (Item M)) : Blocking (StringData M) ConsoleData where
  formatter := (items.filterMap Item.formatter?).getLast?.or b.formatter
  sinks := b.sinks ++ List.replicate (items.countP Item.isSink) (some plainConsole)

theorem extend_nil (b : Blocking (StringData M) ConsoleData) : extend b [] = b := by
  simp [extend]

theorem extend_formatter (b : Blocking (StringData M) ConsoleData) (p : Str) (ms : List M) (items : List (Item M)) :
    extend b (.formatter p ms :: items)
      = extend { b with formatter := some { pattern := p, sevmap := ms.getLast? } } items := by
  simp only [extend, List.filterMap_cons, Item.formatter?, Blocking.mk.injEq]
  constructor
  · simp only [List.getLast?_cons]
    cases (items.filterMap Item.formatter?).getLast? <;> simp
  · simp [Item.isSink]

theorem extend_sink (b : Blocking (StringData M) ConsoleData) (items : List (Item M)) :
    extend b (.sink :: items) = extend { b with sinks := b.sinks ++ [some plainConsole] } items := by
  rw [extend, extend, List.countP_cons_of_pos (by rfl), List.replicate_succ]
  simp [List.filterMap_cons, Item.formatter?]

theorem extend_init (items : List (Item M)) :
    Handler.blocking (extend (blocking (StringData M) ConsoleData).init items) = (Said.blocking items).handler := by
  simp [extend, blocking, Said.handler]

/-- The calls that can follow, given the object they are called on: they complete what it holds, and describe further
handlers. -/
inductive Follows : Obj M → List (Call M) → List (Handler M) → List Str → Prop
  | root (pre : List (Handler M)) (hs : List (Said M)) :
      Follows (.root pre) (callsOf hs) (pre ++ hs.map Said.handler) (hs.flatMap Said.patterns)
  | blocking (pre : List (Handler M)) (b : Blocking (StringData M) ConsoleData) (items : List (Item M))
      (hs : List (Said M)) :
      Follows (.blocking pre b) (items.flatMap Item.calls ++ [.build] ++ callsOf hs)
        (pre ++ [.blocking (extend b items)] ++ hs.map Said.handler)
        ((items.filterMap Item.formatter?).map StringData.pattern ++ hs.flatMap Said.patterns)
  | dev (pre : List (Handler M)) (hs : List (Said M)) :
      Follows (.dev pre) ([.build] ++ callsOf hs) (pre ++ [.dev] ++ hs.map Said.handler) (hs.flatMap Said.patterns)
  | string (pre : List (Handler M)) (b : Blocking (StringData M) ConsoleData) (f : StringData M) (ms : List M)
      (items : List (Item M)) (hs : List (Said M)) :
      Follows (.string pre b f) (ms.map .mapping ++ [.build] ++ items.flatMap Item.calls ++ [.build] ++ callsOf hs)
        (pre ++ [.blocking (extend { b with formatter := some { f with sevmap := ms.getLast?.or f.sevmap } } items)]
          ++ hs.map Said.handler)
        (f.pattern :: ((items.filterMap Item.formatter?).map StringData.pattern ++ hs.flatMap Said.patterns))
  | console (pre : List (Handler M)) (b : Blocking (StringData M) ConsoleData) (c : ConsoleData)
      (items : List (Item M)) (hs : List (Said M)) :
      Follows (.console pre b c) ([.build] ++ items.flatMap Item.calls ++ [.build] ++ callsOf hs)
        (pre ++ [.blocking (extend { b with sinks := b.sinks ++ [some c] } items)] ++ hs.map Said.handler)
        ((items.filterMap Item.formatter?).map StringData.pattern ++ hs.flatMap Said.patterns)

/-- Following a step backwards. -/
theorem follows_step (o o' : Obj M) (c : Call M) (cs : List (Call M)) (H : List (Handler M)) (ps : List Str)
    (hc : call parses o c = .value o' ∨ call parses o c = .reference o') (h : Follows o' cs H ps) :
    ∃ ps', Follows o (c :: cs) H ps' ∧ (ps' = ps ∨ ∃ p, ps' = p :: ps ∧ parses p = true) := by
  cases o with
  | root pre =>
    cases c <;> simp [call] at hc <;> subst hc
    · cases h with
      | blocking _ _ items hs =>
        refine ⟨_, ?_, .inl rfl⟩
        have := Follows.root pre (Said.blocking items :: hs)
        simpa [callsOf, Said.calls, Said.patterns, extend_init] using this
    · cases h with
      | dev _ hs =>
        refine ⟨_, ?_, .inl rfl⟩
        have := Follows.root pre (Said.dev :: hs)
        simpa [callsOf, Said.calls, Said.patterns, Said.handler] using this
  | blocking pre b =>
    cases c <;> simp [call] at hc <;> subst hc
    · rename_i p
      cases h with
      | string _ _ _ ms items hs =>
        refine ⟨_, ?_, .inl rfl⟩
        have := Follows.blocking pre b (Item.formatter p ms :: items) hs
        rw [extend_formatter] at this
        simpa [Item.calls, Item.formatter?, string] using this
    · cases h with
      | console _ _ _ items hs =>
        refine ⟨_, ?_, .inl rfl⟩
        have := Follows.blocking pre b (Item.sink :: items) hs
        rw [extend_sink] at this
        simpa [Item.calls, List.filterMap_cons, Item.formatter?, console, plainConsole] using this
    · cases h with
      | root _ hs =>
        refine ⟨_, ?_, .inl rfl⟩
        have := Follows.blocking pre b [] hs
        rw [extend_nil] at this
        simpa [blocking] using this
  | dev pre =>
    cases c <;> simp [call] at hc <;> subst hc
    cases h with
    | root _ hs =>
      refine ⟨_, ?_, .inl rfl⟩
      simpa using Follows.dev pre hs
  | string pre b f =>
    cases c <;> simp [call] at hc
    · rename_i m
      subst hc
      cases h with
      | string _ _ _ ms items hs =>
        refine ⟨_, ?_, .inl rfl⟩
        have := Follows.string pre b f (m :: ms) items hs
        rw [List.getLast?_cons] at this
        cases hm : ms.getLast? <;> simpa [string, hm] using this
    · split at hc
      · rename_i hp
        simp at hc
        subst hc
        cases h with
        | blocking _ _ items hs =>
          refine ⟨_, ?_, .inr ⟨f.pattern, rfl, hp⟩⟩
          have := Follows.string pre b f [] items hs
          simpa [string, blocking] using this
      · simp at hc
  | console pre b k =>
    cases c <;> simp [call] at hc <;> subst hc
    cases h with
    | blocking _ _ items hs =>
      refine ⟨_, ?_, .inl rfl⟩
      have := Follows.console pre b k items hs
      simpa [blocking, console] using this

/-- Chains that give a logger are those that follow, with patterns that parse. -/
theorem flat_follows (o : Obj M) (cs : List (Call M)) (H : List (Handler M)) (h : flat parses o cs = .logger H) :
    ∃ ps, Follows o cs H ps ∧ ∀ p ∈ ps, parses p = true := by
  induction cs generalizing o with
  | nil => simp [flat] at h
  | cons c cs ih =>
    simp only [flat] at h
    cases hg : call parses o c with
    | value o' =>
      simp only [hg] at h
      obtain ⟨ps, h1, h2⟩ := ih o' h
      obtain ⟨ps', h3, h4⟩ := follows_step parses o o' c cs H ps (.inl hg) h1
      exact ⟨ps', h3, by rcases h4 with rfl | ⟨p, rfl, hp⟩ <;> simp_all⟩
    | reference o' =>
      simp only [hg] at h
      obtain ⟨ps, h1, h2⟩ := ih o' h
      obtain ⟨ps', h3, h4⟩ := follows_step parses o o' c cs H ps (.inr hg) h1
      exact ⟨ps', h3, by rcases h4 with rfl | ⟨p, rfl, hp⟩ <;> simp_all⟩
    | threw => simp [hg] at h
    | notCompiled => simp [hg] at h
    | logger hs =>
      simp only [hg] at h
      cases cs with
      | cons => simp at h
      | nil =>
        simp only [Result.logger.injEq] at h
        subst h
        cases o with
        | root pre =>
          cases c <;> simp [call] at hg
          subst hg
          exact ⟨[], by simpa [callsOf] using Follows.root pre [], by simp⟩
        | blocking => cases c <;> simp [call] at hg
        | dev => cases c <;> simp [call] at hg
        | string => cases c <;> simp [call] at hg; split at hg <;> simp at hg
        | console => cases c <;> simp [call] at hg

/-- Following a step forwards. -/
theorem follows_forward (o : Obj M) (c : Call M) (cs : List (Call M)) (H : List (Handler M)) (ps : List Str)
    (h : Follows o (c :: cs) H ps) :
    (∃ o' ps', (call parses o c = .value o' ∨ call parses o c = .reference o') ∧ Follows o' cs H ps'
        ∧ (ps = ps' ∨ ∃ p, ps = p :: ps' ∧ parses p = true))
      ∨ (call parses o c = .logger H ∧ cs = [] ∧ ps = [])
      ∨ (call parses o c = .threw ∧ ∃ p ∈ ps, parses p = false) := by
  generalize he : c :: cs = l at h
  cases h with
  | root pre hs =>
    cases hs with
    | nil =>
      simp only [callsOf, List.flatMap_nil, List.nil_append, List.cons.injEq] at he
      obtain ⟨rfl, rfl⟩ := he
      exact .inr (.inl ⟨by simp [call], rfl, rfl⟩)
    | cons x hs =>
      cases x with
      | dev =>
        simp only [callsOf, List.flatMap_cons, Said.calls, List.cons_append, List.nil_append, List.cons.injEq] at he
        obtain ⟨rfl, rfl⟩ := he
        refine .inl ⟨_, _, .inl rfl, ?_, .inl rfl⟩
        simpa [callsOf, Said.handler, Said.patterns] using Follows.dev pre hs
      | blocking items =>
        simp only [callsOf, List.flatMap_cons, Said.calls, List.cons_append, List.nil_append, List.cons.injEq] at he
        obtain ⟨rfl, rfl⟩ := he
        refine .inl ⟨_, _, .inl rfl, ?_, .inl rfl⟩
        have := Follows.blocking pre (blocking (StringData M) ConsoleData).init items hs
        rw [extend_init] at this
        simpa [callsOf, Said.patterns] using this
  | blocking pre b items hs =>
    cases items with
    | nil =>
      simp only [List.flatMap_nil, List.nil_append, List.cons_append, List.cons.injEq] at he
      obtain ⟨rfl, rfl⟩ := he
      refine .inl ⟨_, _, .inr rfl, ?_, .inl rfl⟩
      have := Follows.root (pre ++ [.blocking b]) hs
      simpa [extend_nil, blocking] using this
    | cons x items =>
      cases x with
      | formatter p ms =>
        simp only [List.flatMap_cons, Item.calls, List.nil_append, List.cons_append, List.cons.injEq] at he
        obtain ⟨rfl, rfl⟩ := he
        refine .inl ⟨_, _, .inl rfl, ?_, .inl rfl⟩
        have := Follows.string pre b (string M p).init ms items hs
        rw [extend_formatter]
        simpa [List.filterMap_cons, Item.formatter?, string] using this
      | sink =>
        simp only [List.flatMap_cons, Item.calls, List.nil_append, List.cons_append, List.cons.injEq] at he
        obtain ⟨rfl, rfl⟩ := he
        refine .inl ⟨_, _, .inl rfl, ?_, .inl rfl⟩
        have := Follows.console pre b console.init items hs
        rw [extend_sink]
        simpa [List.filterMap_cons, Item.formatter?, console, plainConsole] using this
  | dev pre hs =>
    simp only [List.nil_append, List.cons_append, List.cons.injEq] at he
    obtain ⟨rfl, rfl⟩ := he
    exact .inl ⟨_, _, .inr rfl, Follows.root (pre ++ [.dev]) hs, .inl rfl⟩
  | string pre b f ms items hs =>
    cases ms with
    | nil =>
      simp only [List.map_nil, List.nil_append, List.cons_append, List.cons.injEq] at he
      obtain ⟨rfl, rfl⟩ := he
      by_cases hp : parses f.pattern = true
      · refine .inl ⟨_, _, .inr (by simp only [call, hp]; rfl), ?_, .inr ⟨_, rfl, hp⟩⟩
        have := Follows.blocking pre { b with formatter := some f } items hs
        simpa [string, blocking] using this
      · exact .inr (.inr ⟨by simp [call, hp], f.pattern, by simp, by simpa using hp⟩)
    | cons m ms =>
      simp only [List.map_cons, List.cons_append, List.cons.injEq] at he
      obtain ⟨rfl, rfl⟩ := he
      refine .inl ⟨_, _, .inr rfl, ?_, .inl rfl⟩
      have := Follows.string pre b ((string M f.pattern).call f (some m)) ms items hs
      rw [List.getLast?_cons]
      cases hm : ms.getLast? <;> simpa [string, hm] using this
  | console pre b k items hs =>
    simp only [List.nil_append, List.cons_append, List.cons.injEq] at he
    obtain ⟨rfl, rfl⟩ := he
    refine .inl ⟨_, _, .inr rfl, ?_, .inl rfl⟩
    have := Follows.blocking pre { b with sinks := b.sinks ++ [some k] } items hs
    simpa [blocking, console] using this

/-- Calls that follow are not none. -/
theorem follows_ne (o : Obj M) (H : List (Handler M)) (ps : List Str) : ¬ Follows o [] H ps := by
  intro h
  generalize he : ([] : List (Call M)) = l at h
  cases h <;> simp [callsOf] at he

/-- The result of calls that follow. -/
theorem follows_flat (o : Obj M) (cs : List (Call M)) (H : List (Handler M)) (ps : List Str) (h : Follows o cs H ps) :
    flat parses o cs = if ps.all parses then .logger H else .threw := by
  induction cs generalizing o ps with
  | nil => exact absurd h (follows_ne _ _ _)
  | cons c cs ih =>
    rcases follows_forward parses o c cs H ps h with ⟨o', ps', hc, h', hp⟩ | ⟨hc, rfl, rfl⟩ | ⟨hc, p, hp1, hp2⟩
    · have := ih o' ps' h'
      have he : flat parses o (c :: cs) = flat parses o' cs := by
        rcases hc with hc | hc <;> simp only [flat, hc]
      rw [he, this]
      rcases hp with rfl | ⟨p, rfl, hp⟩
      · rfl
      · simp [hp]
    · simp [flat, hc]
    · simp only [flat, hc]
      rw [if_neg]
      simp only [List.all_eq_true]
      intro ha
      have := ha p hp1
      simp [hp2] at this

end

/-! ## C83 -/

/-- The calls of all statements of a program, in order. -/
def allCalls {M : Type} (prog : List (Bind × List (Call M))) : List (Call M) := prog.flatMap Prod.snd

/-- **C83.** A program whose calls describe some handlers, spread over any number of statements whose variables are
objects, builds the logger with exactly these handlers, in order; if some pattern does not parse, it throws instead. A
variable may also be a reference to what `handler`, `set` or `add` returned. -/
theorem C83_builds_partial {M : Type} (parses : Str → Bool) (hs : List (Said M)) (prog : List (Bind × List (Call M)))
    (hc : allCalls prog = callsOf hs) (hne : ∀ s ∈ prog, s.2 ≠ [])
    (hv : ∀ s ∈ prog, s.1 = .value ∨ ∃ pre c, s.2 = pre ++ [c]
      ∧ (c = .handlerBlocking ∨ c = .handlerDev ∨ (∃ p, c = .setString p) ∨ c = .addConsole)) :
    run parses prog
      = if (hs.flatMap Said.patterns).all parses then .logger (hs.map Said.handler) else .threw := by
  unfold run
  rw [exec_flat parses _ _ prog _ hne]
  · rw [show prog.flatMap Prod.snd = callsOf hs from hc, follows_flat parses _ _ _ _ (Follows.root [] hs)]
    rfl
  · intro s h
    rcases hv s h with h | ⟨pre, c, h1, h2⟩
    · exact .inl h
    · refine .inr ⟨c, by simp [h1], ?_⟩
      rcases h2 with rfl | rfl | ⟨p, rfl⟩ | rfl <;> rfl

/-- Conversely, only such programs give a logger. -/
theorem C83_only {M : Type} (parses : Str → Bool) (prog : List (Bind × List (Call M))) (hne : ∀ s ∈ prog, s.2 ≠ [])
    (hv : ∀ s ∈ prog, s.1 = .value) (H : List (Handler M)) (h : run parses prog = .logger H) :
    ∃ hs : List (Said M), allCalls prog = callsOf hs ∧ H = hs.map Said.handler
      ∧ ∀ p ∈ hs.flatMap Said.patterns, parses p = true := by
  unfold run at h
  rw [exec_flat parses _ _ prog (fun s hm => .inl (hv s hm)) hne] at h
  obtain ⟨ps, h1, h2⟩ := flat_follows parses _ _ _ h
  unfold allCalls
  generalize prog.flatMap Prod.snd = cs at h1
  cases h1 with
  | root _ hs => exact ⟨hs, rfl, rfl, h2⟩

/-- **C83, negation.** A variable that is a reference to what `build` or `mapping` returned refers into a temporary of the
first statement, which is gone: using it is undefined behaviour, however the chain goes on. -/
theorem C83_fails_reference {M : Type} (parses : Str → Bool) (pre : List (Call M)) (c : Call M)
    (hc : c = .build ∨ ∃ m, c = .mapping m) (b : Bind) (cs : List (Call M)) (rest : List (Bind × List (Call M)))
    (hl : ∃ o, run parses [(.value, pre ++ [c])] = .unfinished o) :
    run parses ((.reference, pre ++ [c]) :: (b, cs) :: rest) = .dangling := by
  obtain ⟨o, hl⟩ := hl
  unfold run at hl
  rw [exec_flat parses _ _ _ (by intro s hs; left; simp_all) (by simp)] at hl
  simp only [List.flatMap_cons, List.flatMap_nil, List.append_nil] at hl
  have hf := chain_flat parses (.root []) .fresh (pre ++ [c]) []
  rw [List.append_nil, hl] at hf
  have hm : c.makes = false := by rcases hc with rfl | ⟨m, rfl⟩ <;> rfl
  have hp : ∀ o', ((chain parses (.root []) .fresh (pre ++ [c])).1 = .reference o'
        ∨ (chain parses (.root []) .fresh (pre ++ [c])).1 = .value o') →
      (chain parses (.root []) .fresh (pre ++ [c])).2 = .inside :=
    fun o' ho => (chain_place parses (.root []) .fresh (pre ++ [c]) c (by simp) o' ho).2 hm (by simp)
  unfold run
  simp only [exec, if_true]
  rcases hg : chain parses (.root []) .fresh (pre ++ [c]) with ⟨g, pl⟩
  rw [hg] at hf hp
  cases g with
  | value o' =>
    have : pl = .inside := hp o' (.inr rfl)
    subst this
    simp
  | reference o' =>
    have : pl = .inside := hp o' (.inl rfl)
    subst this
    simp
  | threw => simp at hf
  | notCompiled => simp at hf
  | logger => simp at hf

/-! ### Examples -/

/-- Two handlers in three statements, one of them bound to a reference to a new object. -/
def said : List (Said Nat) :=
  [.blocking [.formatter (ch! "a") [], .sink, .formatter (ch! "{message}") [1, 2], .sink], .dev]

def program : List (Bind × List (Call Nat)) :=
  [(.reference, [.handlerBlocking, .setString (ch! "a"), .build, .addConsole]),
   (.value, [.build, .setString (ch! "{message}"), .mapping 1]),
   (.value, [.mapping 2, .build, .addConsole, .build, .build, .handlerDev, .build, .build])]

example : allCalls program = callsOf said := rfl
example : said.map Said.handler
    = [.blocking { formatter := some { pattern := ch! "{message}", sevmap := some 2 },
                   sinks := [some plainConsole, some plainConsole] }, .dev] := rfl
example : run (fun p => !p.isEmpty) program = .logger (said.map Said.handler) :=
  C83_builds_partial (fun p => !p.isEmpty) said program rfl (by simp [program])
    (by intro s hs
        simp only [program, List.mem_cons, List.not_mem_nil, or_false] at hs
        rcases hs with rfl | rfl | rfl
        · exact .inr ⟨[.handlerBlocking, .setString (ch! "a"), .build], .addConsole, rfl, .inr (.inr (.inr rfl))⟩
        · exact .inl rfl
        · exact .inl rfl)
example : run (fun p => p != ch! "a") program = .threw := rfl
/-- `auto&& x = partial_builder<root_logger_t>().handler<blocking_t>().set<string_t>("a").build();` -/
example : run (fun _ => true)
      [(.reference, [.handlerBlocking, .setString (ch! "a"), .build]), (.value, ([.build, .build] : List (Call Nat)))]
    = .dangling :=
  C83_fails_reference (fun _ => true) [.handlerBlocking, .setString (ch! "a")] .build (.inl rfl) _ _ [] ⟨_, rfl⟩

end Blackhole.Builder.Chain
