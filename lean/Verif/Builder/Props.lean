import Verif.Builder.Spec

/-! # C82: builders -/

namespace Blackhole.Builder

/-! ## Lemmas -/

section
variable {S C P : Type} (k : Kind S C P)

/-- What a builder's data is after a history. -/
def Kind.after : S → List (Step C) → S
  | s, [] => s
  | s, .call c :: h => Kind.after (k.call s c) h
  | s, .build :: h => Kind.after (k.build s).2 h

theorem after_append (s : S) (h g : List (Step C)) : k.after s (h ++ g) = k.after (k.after s h) g := by
  induction h generalizing s with
  | nil => rfl
  | cons x h ih => cases x <;> exact ih _

/-- If the data at every moment is a function of the calls, so are the products. -/
theorem run_describe (D : Nat → List C → List C → S) (hi : D 0 [] [] = k.init)
    (hc : ∀ n b s c, k.call (D n b s) c = D n b (s ++ [c]))
    (hb : ∀ n b s, (k.build (D n b s)).2 = D (n + 1) (b ++ s) []) (h : List (Step C)) :
    k.run k.init h = (builds h).map fun x => (k.build (D x.nth x.before x.since)).1 := by
  have key : ∀ (h : List (Step C)) (n : Nat) (b s : List C),
      k.run (D n b s) h = (buildsFrom n b s h).map fun x => (k.build (D x.nth x.before x.since)).1 := by
    intro h
    induction h with
    | nil => intros; rfl
    | cons x h ih =>
      intro n b s
      cases x with
      | call c => simp only [Kind.run, buildsFrom, hc, ih]
      | build => simp only [Kind.run, buildsFrom, hb, ih, List.map_cons]
  rw [← hi]
  exact key h 0 [] []

end

theorem lastOf_nil {C V : Type} (f : C → Option V) : lastOf f [] = none := rfl

theorem lastOf_snoc {C V : Type} (f : C → Option V) (cs : List C) (c : C) :
    lastOf f (cs ++ [c]) = (f c).or (lastOf f cs) := by
  unfold lastOf
  cases h : f c <;> simp [List.filterMap_append, h]

/-! ## Any builder, in any program -/

/-- **C82.** In every program with builder variables of one kind, a command dereferences a null pointer exactly if it
uses a variable whose object was moved away, and otherwise each `build` gives what the history of its object says,
however often the object was moved between variables. -/
theorem C82_program {S C P : Type} (k : Kind S C P) (cs : List (Cmd C)) :
    k.exec (fun _ => none) cs
      = match traces (fun _ => none) cs with
        | none => .error .nullDeref
        | some hs => .ok (hs.map fun h => (k.build (k.after k.init h)).1) := by
  have key : ∀ (cs : List (Cmd C)) (hs : Histories C),
      k.exec (fun v => (hs v).map (k.after k.init)) cs
        = match traces hs cs with
          | none => .error .nullDeref
          | some hs => .ok (hs.map fun h => (k.build (k.after k.init h)).1) := by
    intro cs
    induction cs with
    | nil => intros; rfl
    | cons c cs ih =>
      intro hs
      have hu : ∀ (v : Nat) (g : Option (List (Step C))) (s : Option S), g.map (k.after k.init) = s →
          Scope.upd (fun v => (hs v).map (k.after k.init)) v s
            = fun x => ((if x = v then g else hs x)).map (k.after k.init) := by
        intro v g s e
        funext x
        unfold Scope.upd
        by_cases hx : x = v <;> simp [hx, e]
      cases c with
      | new v =>
        simp only [Kind.exec, traces]
        rw [hu v (some []) (some k.init) rfl]
        exact ih _
      | call v c =>
        simp only [Kind.exec, traces]
        cases hv : hs v with
        | none => rfl
        | some h =>
          simp only [Option.map_some, Option.bind_some]
          rw [hu v (some (h ++ [.call c])) _ (by simp [after_append, Kind.after])]
          exact ih _
      | build v =>
        simp only [Kind.exec, traces]
        cases hv : hs v with
        | none => rfl
        | some h =>
          simp only [Option.map_some, Option.bind_some]
          rw [hu v (some (h ++ [.build])) _ (by simp [after_append, Kind.after]), ih]
          cases traces (fun x => if x = v then some (h ++ [Step.build]) else hs x) cs <;> rfl
      | move dst src =>
        simp only [Kind.exec, traces]
        by_cases hd : dst = src
        · subst hd
          rw [if_pos rfl, ih]
          have : (fun x => if x = dst ∧ dst ≠ dst then none else if x = dst then hs dst else hs x) = hs := by
            funext x
            by_cases hx : x = dst <;> simp [hx]
          rw [this]
        · rw [if_neg hd, ← ih]
          congr 1
          funext x
          unfold Scope.upd
          by_cases h1 : x = src <;> by_cases h2 : x = dst <;> simp [h1, h2, hd]
  exact key cs fun _ => none

/-- Moving a builder changes nothing but its name; the old name may not be used. -/
example : (blocking Nat Nat).exec (fun _ => none)
      [.new 0, .call 0 (.add (some 1)), .move 5 0, .call 5 (.set (some 7)), .build 5]
    = .ok [{ formatter := some 7, sinks := [some 1] }] := rfl
example : (blocking Nat Nat).exec (fun _ => none) [.new 0, .move 5 0, .call 0 (.add (some 1))]
    = .error .nullDeref := rfl
example : (blocking Nat Nat).exec (fun _ => none)
      [.new 0, .call 0 (.set (some 7)), .move 0 0, .build 0, .build 0]
    = .ok [{ formatter := some 7, sinks := [] }, { formatter := none, sinks := [] }] := rfl

/-! ## Handlers and loggers -/

/-- **C82, blocking handlers.** Each has the formatter set last and all the sinks in the order in which they were added,
since the handler before it was built. -/
theorem C82_blocking (F T : Type) (h : List (Step (BlockingCall F T))) :
    (blocking F T).run (blocking F T).init h = (builds h).map fun b => describeBlocking b.since :=
  run_describe (blocking F T) (fun _ _ s => describeBlocking s) rfl
    (by intro _ _ s c
        cases c <;> simp [blocking, describeBlocking, lastOf_snoc, List.filterMap_append, BlockingCall.formatter?,
          BlockingCall.sink?])
    (by intros; rfl) h

/-- A builder of blocking handlers is like new after `build()`. -/
theorem C82_blocking_renews (F T : Type) : (blocking F T).Renews := by
  have hf : ∀ cs, (blocking F T).fresh cs = describeBlocking cs := by
    intro cs
    have := C82_blocking F T (cs.map .call ++ [.build])
    have h1 : ∀ (cs : List (BlockingCall F T)) (s : Blocking F T) (g : List (Step (BlockingCall F T))),
        (blocking F T).run s (cs.map .call ++ g) = (blocking F T).run (cs.foldl (blocking F T).call s) g := by
      intro cs
      induction cs with
      | nil => intros; rfl
      | cons c cs ih => intro s g; exact ih _ _
    have h2 : ∀ (cs pre : List (BlockingCall F T)),
        buildsFrom 0 [] pre (cs.map Step.call ++ [Step.build]) = [⟨0, [], pre ++ cs⟩] := by
      intro cs
      induction cs with
      | nil => intro pre; simp [buildsFrom]
      | cons c cs ih => intro pre; simp [buildsFrom, ih]
    rw [h1, builds, h2] at this
    simpa [Kind.run, Kind.fresh] using this
  intro h
  rw [C82_blocking]
  simp only [hf]

/-- What the handler then does: with a formatter and sinks that are there, each sink gets the formatter's text once, in
order. -/
theorem C82_blocking_delivers {F T : Type} (cs : List (BlockingCall F T)) (f : F) (ts : List T)
    (hf : (describeBlocking cs).formatter = some f) (ht : (describeBlocking cs).sinks = ts.map some) :
    (describeBlocking cs).handle = (ts.map fun t => (f, t), none) := by
  unfold Blocking.handle
  rw [hf, ht]
  show emits f (ts.map some) = _
  clear ht
  induction ts with
  | nil => rfl
  | cons t ts ih => simp [emits, ih]

example : describeBlocking [.add (some 1), .set (some 'a'), .add (some 2), .set (some 'b')]
    = { formatter := some 'b', sinks := [some 1, some 2] } := rfl

/-- A handler built without a formatter dereferences a null pointer at the first record. -/
theorem C82_fails_no_formatter {F T : Type} (cs : List (BlockingCall F T)) (h : ∀ f, .set f ∉ cs) :
    (describeBlocking cs).handle = ([], some .nullDeref) := by
  have : cs.filterMap BlockingCall.formatter? = [] := by
    rw [List.filterMap_eq_nil_iff]
    intro c hc
    cases c with
    | set f => exact absurd hc (h f)
    | add => rfl
  simp [Blocking.handle, describeBlocking, lastOf, this]

example : ∀ f, BlockingCall.set f ∉ [(.add (some 3) : BlockingCall Nat Nat)] := by simp

/-- Sinks before a null pointer get the text; then the null pointer is dereferenced. -/
theorem C82_fails_null_sink {F T : Type} (cs : List (BlockingCall F T)) (f : F) (ts : List T) (more : List (Option T))
    (hf : (describeBlocking cs).formatter = some f) (ht : (describeBlocking cs).sinks = ts.map some ++ none :: more) :
    (describeBlocking cs).handle = (ts.map fun t => (f, t), some .nullDeref) := by
  unfold Blocking.handle
  rw [hf, ht]
  show emits f (ts.map some ++ none :: more) = _
  clear ht
  induction ts with
  | nil => rfl
  | cons t ts ih => simp [emits, ih]

example : (describeBlocking [.add (some 1), .set (some 'a'), .add none, .add (some 2)]).handle
    = ([('a', 1)], some .nullDeref) := rfl

/-- **C82, root loggers.** Each has the handlers added since the logger before it was built, in order. -/
theorem C82_root_partial (H : Type) (h : List (Step (Option H))) :
    (root H).run (root H).init h = (builds h).map describeRoot :=
  run_describe (root H) (fun n _ s => { filter := if n = 0 then some fun _ _ => some true else none, handlers := s }) rfl
    (by intros; rfl) (by intros; simp [root]) h

/-- The second logger of a builder is useless: every log call on it throws, and no handler sees the record. -/
theorem C82_fails_root {H : Type} (h : List (Step (Option H))) (l : Logger H)
    (hl : ((root H).run (root H).init h).tail.head? = some l) (w : Scope.World) (t lg : Nat) (lists : List AttrList)
    (hs : w.scoped t lg = .ok lists) (handlers : List Root.Handler) (now sev : Int) (msg : Str) (pack : Pack)
    (sup : Root.Supplier) :
    ∃ res, Root.consume w t lg { filter := l.asked, handlers } now sev msg pack sup = .ok res
      ∧ res.outcome = .filterThrew ∧ Root.calls res.trace = [] := by
  have hn : l.filter = none := by
    rw [C82_root_partial] at hl
    have key : ∀ (h : List (Step (Option H))) (n : Nat) (b s : List (Option H)) (i : Nat),
        ((buildsFrom n b s h)[i]?.map Build.nth) = (buildsFrom n b s h)[i]?.map fun _ => n + i := by
      intro h
      induction h with
      | nil => intros; rfl
      | cons x h ih =>
        intro n b s i
        cases x with
        | call c => exact ih _ _ _ _
        | build =>
          cases i with
          | zero => simp [buildsFrom]
          | succ i =>
            simp only [buildsFrom, List.getElem?_cons_succ]
            rw [ih]
            simp [Nat.add_comm, Nat.add_left_comm]
    have h1 := key h 0 [] [] 1
    rw [List.head?_tail, List.getElem?_map] at hl
    cases hb : (builds h)[1]? with
    | none => simp [hb] at hl
    | some b =>
      unfold builds at hb
      rw [hb] at h1
      simp only [Option.map_some, Option.some.injEq] at h1
      unfold builds at hl
      rw [hb] at hl
      simp only [Option.map_some, Option.some.injEq] at hl
      rw [← hl]
      simp [describeRoot, h1]
  have ha : l.asked = fun _ _ => none := by simp [Logger.asked, hn]
  simp only [Root.consume, hs, bind, Except.bind, ha]
  exact ⟨_, rfl, rfl, rfl⟩

example : ((root Nat).run (root Nat).init [.call (some 1), .build, .call (some 2), .build]).map Logger.handlers
    = [[some 1], [some 2]] := rfl

/-! ## Formatters -/

/-- **C82, string formatters.** Each has the pattern of the builder and the last mapping since the one before. -/
theorem C82_string (M : Type) (p : Str) (h : List (Step (Option M))) :
    (string M p).run (string M p).init h = (builds h).map fun b => describeString p b.since :=
  run_describe (string M p) (fun _ _ s => describeString p s) rfl
    (by intros; simp [string, describeString, lastOf_snoc]) (by intros; rfl) h

example : (string Nat (ch! "{message}")).run (string Nat (ch! "{message}")).init
      [.call (some 1), .call (some 2), .build, .build]
    = [{ pattern := ch! "{message}", sevmap := some 2 }, { pattern := ch! "{message}", sevmap := none }] := rfl

/-- **C82, JSON formatters.** Each is what the calls since the one before say, but `unique` and `newline` stay on. -/
theorem C82_json_partial (h : List (Step Json.Call)) :
    json.run json.init h = (builds h).map describeJson :=
  run_describe json (fun n b s => describeJson ⟨n, b, s⟩) rfl
    (by intro n b s c
        cases c <;>
          simp [json, describeJson, Json.Data.build, List.foldl_append, Json.Data.call, List.any_append])
    (by intros; simp [json, describeJson, Json.Data.build, Json.Data.init]) h

/-- A formatter for which nobody asked for a newline since the last one was built ends its lines all the same. -/
theorem C82_fails_json : ¬ json.Renews := by
  intro h
  have := h [.call .newline, .build, .build]
  have := congrArg (List.map Json.Data.newline) this
  revert this
  decide

/-- **C82, TSKV formatters.** Each is what the calls since the one before say. -/
theorem C82_tskv_partial (h : List (Step Tskv.Call)) :
    tskv.run tskv.init h = (builds h).map describeTskv :=
  run_describe tskv (fun n b s => describeTskv ⟨n, b, s⟩) rfl
    (by intros; simp [tskv, describeTskv, List.foldl_append])
    (by intros; simp [tskv, describeTskv]) h

/-- Only the first formatter writes the timestamp. -/
theorem C82_fails_tskv : ¬ tskv.Renews := by
  intro h
  have := h [.build, .build]
  have := congrArg (List.map fun d => d.timestamps.length) this
  revert this
  decide

/-! ## Sinks -/

/-- **C82, file sinks.** -/
theorem C82_file_partial (path : Str) (h : List (Step File.Call)) :
    (file path).run (file path).init h = (builds h).map (describeFile path) :=
  run_describe (file path) (fun n b s => describeFile path ⟨n, b, s⟩) rfl
    (by intro n b s c
        cases c <;> simp [file, describeFile, lastOf_snoc])
    (by intros; simp [file, describeFile, lastOf_nil]) h

/-- The second sink, unless both policies were set again, creates the file and then dereferences a null pointer at its
first record. -/
theorem C82_fails_file (path : Str) (b : Build File.Call) (hn : 0 < b.nth) (h : .rotateStat ∉ b.since) :
    (describeFile path b).firstEmit true = .openedThenNull := by
  simp [FileData.firstEmit, describeFile, h, show b.nth ≠ 0 by omega]

example : (builds [Step.call (.flushEvents 3), .build, .call (.flushEvents 3), .build]).map
      (fun b => (b.nth, (describeFile ['f'] b).firstEmit true))
    = [(0, .sink (File.Sink.init .null (.repeat 3))), (1, .openedThenNull)] := rfl

/-- The first one works as described for C14 to C18. -/
theorem C82_file_first (path : Str) (cs : List File.Call) :
    (describeFile path ⟨0, [], cs⟩).firstEmit true = .sink (cs.foldl File.Builder.call File.Builder.init).build := by
  have key : ∀ cs : List File.Call,
      describeFile path ⟨0, [], cs⟩
        = { path := path, rotate := some (cs.foldl File.Builder.call File.Builder.init).rotate,
            flusher := some (cs.foldl File.Builder.call File.Builder.init).flusher } := by
    intro cs
    induction cs using snoc_induction with
    | nil => rfl
    | snoc cs c ih =>
      simp only [describeFile, FileData.mk.injEq, true_and] at ih ⊢
      obtain ⟨h1, h2⟩ := ih
      rw [List.foldl_append]
      cases c with
      | flushBytes u n => simp [lastOf_snoc, File.Builder.call, ← h1]
      | flushEvents n => simp [lastOf_snoc, File.Builder.call, ← h1]
      | rotateStat => simp [lastOf_snoc, File.Builder.call]; simpa using h2
  rw [key]
  rfl

example : (file ['f']).run (file ['f']).init [.call (.flushEvents 3), .build, .call .rotateStat, .build]
    = [{ path := ['f'], rotate := some .null, flusher := some (.repeat 3) },
       { path := ['f'], rotate := some .stat, flusher := none }] := rfl

/-- **C82, console sinks.** -/
theorem C82_console_partial (h : List (Step ConsoleCall)) :
    console.run console.init h = (builds h).map describeConsole :=
  run_describe console (fun n b s => describeConsole ⟨n, b, s⟩) rfl
    (by intro n b s c
        cases c with
        | stdout => simp [console, describeConsole, describeStream, colourOf, ← List.append_assoc, lastOf_snoc]
        | stderr => simp [console, describeConsole, describeStream, colourOf, ← List.append_assoc, lastOf_snoc]
        | colorize x col =>
          simp only [console, describeConsole, describeStream, colourOf, ← List.append_assoc, lastOf_snoc, Option.none_or]
          congr 1
          funext y
          by_cases hy : x = y <;> simp [hy]
        | colorizeBy fn =>
          simp [console, describeConsole, describeStream, colourOf, ← List.append_assoc, lastOf_snoc])
    (by intros; simp [console, describeConsole, colourOf, lastOf_nil]) h

/-- Choosing a colour for errors and building twice: the second sink throws at other records on a terminal. -/
theorem C82_fails_console (c : Console.Color) :
    (console.run console.init [.build, .call (.colorize 3 c), .build]).map (fun d => (d.mapping 3, d.mapping 1))
      = [(some Console.Color.default, some Console.Color.default), (some c, none)] := rfl

/-- **C82, asynchronous sinks.** -/
theorem C82_async_partial (T : Type) (w : Option T) (h : List (Step Async.Call)) :
    (async T w).run (async T w).init h = (builds h).map (describeAsync w) := by
  have hf : ∀ (cs : List Async.Call) (c : Async.Call),
      (Async.Builder.call { policy := Async.Policy.wait, factor := describeFactor cs } c).factor
        = describeFactor (cs ++ [c]) := by
    intro cs c
    unfold describeFactor
    rw [lastOf_snoc]
    cases c <;> simp [Async.Builder.call]
  have hp : ∀ (p q : Async.Policy) (n : Nat) (c : Async.Call),
      (Async.Builder.call { policy := p, factor := n } c).factor = (Async.Builder.call { policy := q, factor := n } c).factor := by
    intro p q n c
    cases c <;> rfl
  have := run_describe (async T w)
    (fun n b s => { wrapped := if n = 0 then w else none,
                    policy := ((b ++ s).foldl Async.Builder.call Async.Builder.init).policy,
                    factor := ((b ++ s).foldl Async.Builder.call Async.Builder.init).factor }) rfl
    (by intros; simp [async, ← List.append_assoc, List.foldl_append])
    (by intros; simp [async]) h
  rw [this]
  apply List.map_congr_left
  intro b _
  have hd : ∀ cs : List Async.Call, (cs.foldl Async.Builder.call Async.Builder.init).factor = describeFactor cs := by
    intro cs
    induction cs using snoc_induction with
    | nil => rfl
    | snoc cs c ih =>
      rw [List.foldl_append, ← hf, ← ih]
      exact hp _ _ _ _
  simp only [async, describeAsync, Async.Builder.build, hd]

/-- A `build` that throws because of the factor has lost the sink: with a better factor the next one wraps nothing. -/
theorem C82_fails_async (T : Type) (t : T) :
    (async T (some t)).run (async T (some t)).init [.call (.factor 21), .build, .call (.factor 5), .build]
      = [(Async.Sink.make 21, some t), (Async.Sink.make 5, none)] := rfl

example : (match Async.Sink.make 21 with | .error _ => true | .ok _ => false) = true
    ∧ (match Async.Sink.make 5 with | .error _ => false | .ok _ => true) = true := ⟨rfl, rfl⟩

end Blackhole.Builder
