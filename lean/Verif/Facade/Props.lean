import Verif.Facade.Model
import Verif.MetaFormat.Props
import Verif.FmtArgs.Props
import Verif.Root.Props

/-!
# C42 The variadic facade

As in `Root`, the statements are about a call through an arbitrary logger `lg` in an arbitrary environment `e` in which
the calling thread's scopes are `scopes`. `candidate` and `delivered` are the records defined there.
-/

namespace Blackhole.Facade

open Root
open Fmt (Arg Piece)
open FmtArgs (Passed)

variable {α : Type}

/-- The arguments of a call: values to format, and possibly an attribute list behind them. -/
def arguments (values : List α) (trailing : Option AttrList) : List (FArg α) :=
  values.map .value ++ trailing.toList.map .attributes

theorem lastOf_snoc (xs : List (FArg α)) (x : FArg α) : lastOf (xs ++ [x]) = some x := by
  induction xs with
  | nil => rfl
  | cons y xs ih =>
    cases xs with
    | nil => rfl
    | cons z xs => rw [List.cons_append, List.cons_append, lastOf]; exact ih

theorem withoutTail_snoc (xs : List (FArg α)) (x : FArg α) (h : xs ≠ []) : withoutTail (xs ++ [x]) = some xs := by
  induction xs with
  | nil => exact absurd rfl h
  | cons y xs ih =>
    cases xs with
    | nil => rfl
    | cons z xs =>
      have := ih (by simp)
      cases xs with
      | nil => rfl
      | cons w xs =>
        rw [List.cons_append, List.cons_append, List.cons_append, withoutTail]
        rw [List.cons_append, List.cons_append] at this
        rw [this]

theorem valuesOf_map (vs : List α) : valuesOf (vs.map .value) = some vs := by
  induction vs with
  | nil => rfl
  | cons v vs ih => rw [List.map_cons, valuesOf, ih]

theorem valuesOf_mem (l : AttrList) (xs ys : List (FArg α)) : valuesOf (xs ++ .attributes l :: ys) = none := by
  induction xs with
  | nil => rfl
  | cons x xs ih => cases x <;> simp [valuesOf, ih]

theorem select_arguments (values : List α) (trailing : Option AttrList) (h : values ≠ []) :
    select (arguments values trailing) = some (values, trailing.toList) := by
  unfold select arguments
  cases trailing with
  | none =>
    have hw : withAttributes (values.map .value) = none := by
      unfold withAttributes
      rcases List.eq_nil_or_concat values with rfl | ⟨ys, y, rfl⟩
      · rfl
      · rw [List.concat_eq_append, List.map_append, List.map_singleton, lastOf_snoc]
    simp only [Option.toList_none, List.map_nil, List.append_nil, hw, valuesOf_map]
  | some l =>
    have hw : withAttributes (values.map .value ++ [.attributes l]) = some l := by
      unfold withAttributes
      rw [lastOf_snoc]
    simp only [Option.toList_some, List.map_cons, List.map_nil, hw,
      withoutTail_snoc (values.map .value) (.attributes l) (by simpa using h), valuesOf_map]

theorem log_arguments (fd : Fmt.Spec → Nat → Except Fmt.Err Str) (e : Env) (lg : Logger) (sev : Int) (pattern : Pattern)
    (values : List Passed) (trailing : Option AttrList) (h : values ≠ []) :
    log fd e lg sev pattern (arguments values trailing) =
      callLazy e sev pattern.text (writeAll fd pattern values) trailing.toList lg := by
  have hs := select_arguments values trailing h
  cases values with
  | nil => exact absurd rfl h
  | cons v vs =>
    have : arguments (v :: vs) trailing = .value v :: arguments vs trailing := rfl
    rw [this] at hs ⊢
    unfold log
    simp only [hs]

variable (fd : Fmt.Spec → Nat → Except Fmt.Err Str) (e : Env) (sev : Int) (lg : Logger) (scopes : List AttrList)
  (hsc : e.world.scoped e.thread e.logger = .ok scopes)

include hsc

theorem callLazy_rejected (msg : Str) (text : Except Fmt.Err Str) (pack : Pack)
    (hf : e.inner.filter [] (candidate e sev msg lg pack scopes) = some false) :
    ∃ res, callLazy e sev msg text pack lg = .ok res ∧ res.outcome = .returned ∧
      res.trace = [.filter (candidate e sev msg lg pack scopes)] := by
  obtain ⟨res, h1, h2, h3, -⟩ := C01_rejected_lazy e sev msg lg pack scopes hsc (supplier text) hf
  refine ⟨res, ?_, h2, h3⟩
  unfold callLazy
  simp [h1, h2]

theorem callLazy_accepted (msg text : Str) (pack : Pack)
    (hf : e.inner.filter [] (candidate e sev msg lg pack scopes) = some true) :
    ∃ res rest, callLazy e sev msg (.ok text) pack lg = .ok res ∧ res.outcome = .returned ∧
      calls res.trace = (List.range e.inner.handlers.length).map (fun i => (i, delivered e sev msg text lg pack scopes)) ∧
      res.trace = .filter (candidate e sev msg lg pack scopes) :: .supply :: rest ∧ supplies res.trace = 1 := by
  obtain ⟨res, rest, h1, h2, h3, h4, h5, -⟩ :=
    C01_accepted_lazy e sev msg lg pack scopes hsc (supplier (.ok text)) (some text) hf (by simp [supplier, supplies])
  refine ⟨res, rest, ?_, h2, h3, h4, h5⟩
  unfold callLazy
  simp [h1, h2]

theorem callLazy_throws (msg m : Str) (pack : Pack)
    (hf : e.inner.filter [] (candidate e sev msg lg pack scopes) = some true) :
    ∃ res, callLazy e sev msg (.error (.format m)) pack lg = .ok res ∧ res.outcome = .supplierThrew ∧
      calls res.trace = [] := by
  obtain ⟨res, h1, h2, h3, -⟩ :=
    C02_supplier_throws e sev msg lg pack scopes hsc (supplier (.error (.format m))) hf rfl
  refine ⟨res, ?_, h2, h3⟩
  unfold callLazy
  simp [h1, h2]

/-- If the filter rejects the record, nothing is formatted, whatever the pattern and the arguments are: all that happens
is that the filter is asked about a record with the pattern as its message and with the trailing attributes. -/
theorem C42_rejected (pattern : Pattern) (values : List Passed) (trailing : Option AttrList) (hv : values ≠ [])
    (hf : e.inner.filter [] (candidate e sev pattern.text lg trailing.toList scopes) = some false) :
    ∃ res, log fd e lg sev pattern (arguments values trailing) = .ok res ∧ res.outcome = .returned ∧
      res.trace = [.filter (candidate e sev pattern.text lg trailing.toList scopes)] := by
  rw [log_arguments fd e lg sev pattern values trailing hv]
  exact callLazy_rejected e sev lg scopes hsc _ _ _ hf

/-- If the filter accepts the record, the values are formatted, once, after the filter was asked. Every handler gets the
record: its message is the pattern, its text is the formatted one, and the trailing attributes come first. -/
theorem C42_accepted (pattern : Pattern) (values : List Passed) (trailing : Option AttrList) (hv : values ≠ [])
    (text : Str) (ht : writeAll fd pattern values = .ok text)
    (hf : e.inner.filter [] (candidate e sev pattern.text lg trailing.toList scopes) = some true) :
    ∃ res rest, log fd e lg sev pattern (arguments values trailing) = .ok res ∧ res.outcome = .returned ∧
      calls res.trace = (List.range e.inner.handlers.length).map
        (fun i => (i, delivered e sev pattern.text text lg trailing.toList scopes)) ∧
      res.trace = .filter (candidate e sev pattern.text lg trailing.toList scopes) :: .supply :: rest ∧
      supplies res.trace = 1 := by
  rw [log_arguments fd e lg sev pattern values trailing hv, ht]
  exact callLazy_accepted e sev lg scopes hsc _ _ _ hf

/-- If formatting fails, the caller gets the exception and no handler is called. -/
theorem C42_format_error (pattern : Pattern) (values : List Passed) (trailing : Option AttrList) (hv : values ≠ [])
    (m : Str) (ht : writeAll fd pattern values = .error (.format m))
    (hf : e.inner.filter [] (candidate e sev pattern.text lg trailing.toList scopes) = some true) :
    ∃ res, log fd e lg sev pattern (arguments values trailing) = .ok res ∧ res.outcome = .supplierThrew ∧
      calls res.trace = [] := by
  rw [log_arguments fd e lg sev pattern values trailing hv, ht]
  exact callLazy_throws e sev lg scopes hsc _ _ _ hf

/-- Without values nothing is formatted: the text of the record is the pattern as it stands, with or without an attribute
list. -/
theorem C42_no_values (pattern : Pattern) (trailing : Option AttrList)
    (hf : e.inner.filter [] (candidate e sev pattern.text lg trailing.toList scopes) = some true) :
    ∃ res, log fd e lg sev pattern (arguments [] trailing) = .ok res ∧ res.outcome = .returned ∧
      calls res.trace = (List.range e.inner.handlers.length).map
        (fun i => (i, delivered e sev pattern.text pattern.text lg trailing.toList scopes)) ∧
      supplies res.trace = 0 := by
  cases trailing with
  | none =>
    obtain ⟨res, h1, h2, h3, h4, -⟩ := C01_accepted_plain e sev pattern.text lg [] scopes hsc hf
    refine ⟨res, ?_, h2, h3, h4⟩
    show lift (lg.logMsg e sev pattern.text) = _
    rw [logMsg_eq, h1]; rfl
  | some l =>
    obtain ⟨res, h1, h2, h3, h4, -⟩ := C01_accepted_plain e sev pattern.text lg [l] scopes hsc hf
    refine ⟨res, ?_, h2, h3, h4⟩
    show lift (lg.logPack e sev pattern.text [l]) = _
    rw [h1]; rfl

/-- With a compile-time pattern: nothing is formatted if the filter rejects the record; otherwise the text of the record
is the pattern with the arguments in it. The message of the record is empty, where the property asks for the pattern. -/
theorem C42_compiled_partial (ps : List Piece) (hp : MetaFormat.Plain ps) (f : MetaFormat.Formatter)
    (hm : MetaFormat.make (Fmt.printAll ps) = .ok f) (values : List Arg) (texts : List Str)
    (ha : Both MetaFormat.Stands values texts) (hv : values ≠ [])
    (hk : MetaFormat.fields ps + MetaFormat.braces ps = values.length) :
    (e.inner.filter [] (candidate e sev [] lg [] scopes) = some false →
      ∃ res, logCompiled fd e lg sev f (arguments values none) = .ok res ∧ res.outcome = .returned ∧
        res.trace = [.filter (candidate e sev [] lg [] scopes)]) ∧
    (e.inner.filter [] (candidate e sev [] lg [] scopes) = some true →
      ∃ res rest text, MetaFormat.substitute ps texts = some text ∧
        logCompiled fd e lg sev f (arguments values none) = .ok res ∧ res.outcome = .returned ∧
        calls res.trace = (List.range e.inner.handlers.length).map
          (fun i => (i, delivered e sev [] text lg [] scopes)) ∧
        res.trace = .filter (candidate e sev [] lg [] scopes) :: .supply :: rest ∧ supplies res.trace = 1) := by
  obtain ⟨text, h1, h2⟩ := MetaFormat.C41_substitutes_partial fd ps hp f hm values texts ha (by omega)
  have harity : ∀ f k, MetaFormat.compiles f k = true → arity f ≤ k := by
    intro f
    induction f with
    | last => intro k _; exact Nat.zero_le k
    | more l f ih =>
      intro k h
      cases k with
      | zero => simp [MetaFormat.compiles] at h
      | succ k =>
        simp only [MetaFormat.compiles, Bool.and_eq_true] at h
        simp only [arity]
        have := ih k h.1
        omega
  have har : arity f = values.length := by
    have h3 := harity f values.length ((MetaFormat.C41_compiles ps hp f hm _).2 (by omega))
    have h4 : ∀ f, MetaFormat.compiles f (arity f) = true := by
      intro f
      induction f with
      | last => rfl
      | more l f ih => simp only [arity, MetaFormat.compiles, ih, MetaFormat.compiles_more f _ ih, Bool.and_self]
    have := (MetaFormat.C41_compiles ps hp f hm _).1 (h4 f)
    omega
  have hlog : logCompiled fd e lg sev f (arguments values none) = callLazy e sev [] (.ok text) [] lg := by
    cases values with
    | nil => exact absurd rfl hv
    | cons v vs =>
      have : arguments (v :: vs) none = .value v :: vs.map .value := by simp [arguments]
      rw [this]
      unfold logCompiled
      simp only
      rw [List.take_of_length_le (by simp [har]), ← List.map_cons, valuesOf_map]
      simp only [h2]
  rw [hlog]
  constructor
  · intro hf
    exact callLazy_rejected e sev lg scopes hsc _ _ _ hf
  · intro hf
    obtain ⟨res, rest, h⟩ := callLazy_accepted e sev lg scopes hsc [] text [] hf
    exact ⟨res, rest, text, h1, h⟩

omit hsc

/-- A pattern that ends with a NUL in memory and has none before is formatted as it stands. -/
theorem C42_pattern (pattern : Pattern) (values : List Passed) (h1 : '\x00' ∉ pattern.text)
    (h2 : pattern.behind.head? = some '\x00') :
    writeAll fd pattern values = FmtArgs.format fd pattern.text values := by
  obtain ⟨text, behind⟩ := pattern
  cases behind with
  | nil => simp at h2
  | cons c b =>
    simp only [List.head?_cons, Option.some.injEq] at h2
    subst h2
    unfold writeAll FmtArgs.format
    rw [if_pos (by simp)]
    have : Config.cstr (text ++ '\x00' :: b) = Config.cstr text := by
      unfold Config.cstr
      rw [List.takeWhile_append_of_pos (by intro c hc; simp; rintro rfl; exact h1 hc)]
      rw [List.takeWhile_cons_of_neg (by simp), List.append_nil]
      exact (Config.cstr_plain h1).symm
    simp only [this]

/-- Together with C75: a literal format string of text and fields, by number, by name or in order, and values of any types,
also of user types. If the filter accepts the record, every handler gets it with the text that the fields and the values
make; an error in a field goes to the caller instead, and no handler is called. -/
theorem C42_message (pattern : Pattern) (values : List Passed) (trailing : Option AttrList) (hv : values ≠ [])
    (hsc : e.world.scoped e.thread e.logger = .ok scopes)
    (h2 : pattern.behind.head? = some '\x00') (hr : ∀ a ∈ values, a.value.InRange)
    (ps : List FmtArgs.Piece) (hp : pattern.text = FmtArgs.printAll ps) (manual : Bool) (hw : FmtArgs.WellFormed ps)
    (hs : FmtArgs.Suits values 0 ps) (hm : FmtArgs.Chosen manual ps)
    (hf : e.inner.filter [] (candidate e sev pattern.text lg trailing.toList scopes) = some true) :
    (∀ text, FmtArgs.expand fd values 0 ps = .ok text →
      ∃ res, log fd e lg sev pattern (arguments values trailing) = .ok res ∧ res.outcome = .returned ∧
        calls res.trace = (List.range e.inner.handlers.length).map
          (fun i => (i, delivered e sev pattern.text text lg trailing.toList scopes))) ∧
    (∀ m, FmtArgs.expand fd values 0 ps = .error (.format m) →
      ∃ res, log fd e lg sev pattern (arguments values trailing) = .ok res ∧ res.outcome = .supplierThrew ∧
        calls res.trace = []) := by
  have ht : writeAll fd pattern values = FmtArgs.expand fd values 0 ps := by
    rw [C42_pattern fd pattern values (by rw [hp]; exact FmtArgs.printAll_no_nul ps hw) h2, hp,
      FmtArgs.C75_expand fd values hr ps manual hw hs hm]
  constructor
  · intro text h
    obtain ⟨res, rest, h1, h3, h4, -⟩ := C42_accepted fd e sev lg scopes hsc pattern values trailing hv text (ht.trans h) hf
    exact ⟨res, h1, h3, h4⟩
  · intro m h
    exact C42_format_error fd e sev lg scopes hsc pattern values trailing hv m (ht.trans h) hf

/-- An attribute list that is not the last argument does not compile; in particular it is never formatted. -/
theorem C42_misplaced (pattern : Pattern) (before after : List (FArg Passed)) (l : AttrList) (ha : after ≠ []) :
    log fd e lg sev pattern (before ++ .attributes l :: after) = .error .notCompiled := by
  have hs : select (before ++ .attributes l :: after) = none := by
    unfold select
    rcases List.eq_nil_or_concat after with rfl | ⟨init, x, rfl⟩
    · exact absurd rfl ha
    · rw [List.concat_eq_append, show before ++ .attributes l :: (init ++ [x]) = (before ++ .attributes l :: init) ++ [x] by simp]
      have hw := withoutTail_snoc (before ++ .attributes l :: init) x (by simp)
      cases hx : withAttributes ((before ++ .attributes l :: init) ++ [x]) with
      | none =>
        simp only
        rw [show (before ++ .attributes l :: init) ++ [x] = before ++ .attributes l :: (init ++ [x]) by simp, valuesOf_mem]
      | some l' => simp only [hw, valuesOf_mem]
  unfold log
  split
  · rename_i h; simp at h
  · rename_i l' h
    exfalso
    have := congrArg List.length h
    cases after with
    | nil => exact ha rfl
    | cons x xs => simp at this; omega
  · simp only [hs]

/-! ## Witnesses -/

private def env : Env :=
  { world := Scope.World.init.construct 0, thread := 3, logger := 0, now := 77
    inner := { filter := fun _ r => some (r.severity ≥ 2), handlers := [fun _ _ => .ok] } }

example : env.world.scoped env.thread env.logger = .ok [] := rfl
example : env.inner.filter [] (candidate env 2 (ch! "{} of {}") .root [[(ch! "k", .null)]] []) = some true := rfl
example : env.inner.filter [] (candidate env 1 (ch! "{} of {}") .root [[(ch! "k", .null)]] []) = some false := rfl
example : writeAll fd ⟨ch! "{} of {}", ch! "\x00"⟩ [.val (.arg (.int 3)), .val (.arg (.cstr (ch! "ten")))] = .ok (ch! "3 of ten") := rfl
example : writeAll fd ⟨ch! "{} of {}", ch! "\x00"⟩ [.val (.arg (.int 3))] = .error (.format (ch! "argument index out of range")) := rfl
example : MetaFormat.Plain [.text (ch! "n="), .field none none] ∧ Both MetaFormat.Stands [.int 3] [ch! "3"]
    ∧ (∃ f, MetaFormat.make (ch! "n={}") = .ok f) :=
  ⟨by simp [MetaFormat.Plain], .cons (.int (by decide) (by decide)) .nil, _, rfl⟩

/-- Names, and a value of a user type. -/
example : (log fd env .root 2 ⟨ch! "{user} {0}", ch! "\x00"⟩
      (arguments [.val (.custom (ch! "(1, 2)")), .named (ch! "user") (.arg (.cstr (ch! "bob")))] none)).map
        (fun r => (calls r.trace).map (·.2.formatted)) = .ok [ch! "bob (1, 2)"] := rfl

example : FmtArgs.WellFormed [.field (.name (ch! "user_1")) none, .text (ch! " "), .field (.index 0) none]
    ∧ FmtArgs.Chosen true [.field (.name (ch! "user_1")) none, .text (ch! " "), .field (.index 0) none]
    ∧ FmtArgs.Suits [.val (.custom (ch! "(1, 2)")), .named (ch! "user_1") (.arg (.int 1))] 0
        [.field (.name (ch! "user_1")) none, .text (ch! " "), .field (.index 0) none]
    ∧ FmtArgs.expand fd [.val (.custom (ch! "(1, 2)")), .named (ch! "user_1") (.arg (.int 1))] 0
        [.field (.name (ch! "user_1")) none, .text (ch! " "), .field (.index 0) none] = .ok (ch! "1 (1, 2)") :=
  ⟨⟨FmtArgs.ident_example, by simp, by decide, (by decide : 0 < 2 ^ 31), by simp, trivial⟩, ⟨rfl, rfl, trivial⟩,
    ⟨fun _ _ _ h => (nomatch h), fun _ _ _ h => (nomatch h), trivial⟩, rfl⟩

/-- A call from beginning to end. -/
example : (log fd env .root 2 ⟨ch! "{} of {}", ch! "\x00"⟩
      (arguments [.val (.arg (.int 3)), .val (.arg (.cstr (ch! "ten")))] (some [(ch! "k", .null)]))).map (fun r => calls r.trace)
    = .ok [(0, { message := ch! "{} of {}", formatted := ch! "3 of ten", severity := 2, timestamp := 77, tid := 3,
                 attributes := [[(ch! "k", .null)]] })] := rfl

/-- A pattern that is a view of a part of a string is formatted beyond its end: the message is `{}` and the text is that
of `{} and more`. -/
theorem C42_fails_view :
    ∃ e : Env, ∀ fd, (log fd e .root 2 ⟨ch! "{}", ch! " and more\x00"⟩ (arguments [.val (.arg (.int 3))] none)).map
        (fun r => (calls r.trace).map fun c => (c.2.message, c.2.formatted))
      = .ok [(ch! "{}", ch! "3 and more")] := ⟨env, fun _ => rfl⟩

/-- If no NUL follows, memory outside of the string is read. -/
theorem C42_fails_unterminated :
    ∃ e : Env, ∀ fd, (log fd e .root 2 ⟨ch! "{}", []⟩ (arguments [.val (.arg (.int 3))] none)).map (fun r => calls r.trace)
      = .error (.ub .outOfBounds) := ⟨env, fun _ => rfl⟩

/-- With a compile-time pattern the message of the record is empty. -/
theorem C42_fails_compiled_message :
    ∃ (e : Env) (f : MetaFormat.Formatter), MetaFormat.make (ch! "n={}") = .ok f ∧
      ∀ fd, (logCompiled fd e .root 2 f (arguments [.int 3] none)).map
        (fun r => (calls r.trace).map fun c => (c.2.message, c.2.formatted)) = .ok [([], ch! "n=3")] :=
  ⟨env, _, rfl, fun _ => rfl⟩

/-- With a compile-time pattern a trailing attribute list compiles and is lost. -/
theorem C42_fails_compiled_attributes :
    ∃ (e : Env) (f : MetaFormat.Formatter), MetaFormat.make (ch! "n={}") = .ok f ∧
      ∀ fd, (logCompiled fd e .root 2 f (arguments [.int 3] (some [(ch! "k", .null)]))).map
        (fun r => (calls r.trace).map fun c => (c.2.formatted, c.2.attributes)) = .ok [(ch! "n=3", [])] :=
  ⟨env, _, rfl, fun _ => rfl⟩

end Blackhole.Facade
